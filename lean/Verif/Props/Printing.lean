import Verif.Lemmas.Printing
/-!
# C89: values of all types can be printed
-/
namespace FakeIt.Printing
open Spec

/-! ## Built-in types -/

/-- **C89** (built-in types, exactly): what is printed for each built-in type. -/
theorem C89_texts_of_builtin_types (l : Library) (mem : Nat → List Nat) (b : Builtin) (v : Nat) : format l mem (.builtin b) v = Spec.shown l mem b v := by
  have key' : (if v ≠ 0 then (R.ofOption (cstring (mem v))).bind fun s => R.done (Shown.quotedText s) else R.done Shown.null) =
      if v = 0 then .done .null else if TextAt mem v then .done (.quotedText (textOf mem v)) else .ub := by
    by_cases hp : v = 0
    · simp [hp]
    · by_cases h0 : 0 ∈ mem v
      · simp only [ne_eq, hp, not_false_eq_true, if_true, if_false, cstring_eq, h0, R.ofOption_some, TextAt, and_self, textOf]; rfl
      · simp only [ne_eq, hp, not_false_eq_true, if_true, if_false, cstring_eq, h0, R.ofOption_none, TextAt, and_false]; rfl
  obtain ⟨n, w, x⟩ := l
  cases b with
  | ptr o vol =>
    cases o <;> cases vol
    case char.false =>
      show some _ = some _
      rw [← key']
    case schar.false =>
      refine Eq.trans ?_ (congrArg some (write_text (.inr (.inl rfl))))
      cases n <;> cases w <;> cases x <;> rfl
    case uchar.false =>
      refine Eq.trans ?_ (congrArg some (write_text (.inr (.inr rfl))))
      cases n <;> cases w <;> cases x <;> rfl
    all_goals cases n <;> cases w <;> cases x <;> rfl
  | _ => cases n <;> cases w <;> cases x <;> rfl

/-! ## What compiles -/

/-- **C89** (compilation, exactly): a method can be mocked, as far as printing the argument is concerned, unless the argument is a wide character or a pointer to wide characters and the standard library is that of C++20 or later, or
the operator the user provides has the right type and a body that does not compile. -/
theorem C89_what_compiles (l : Library) (t : Ty) : compiles l t = true ↔
    ¬ (l.deletesWide = true ∧ (t = .builtin .wide ∨ t = .builtin (.ptr .wide false))) ∧
    ¬ ∃ i o, Calls l t (.own i) (.std 0) ∧ t.ops[i]? = some o ∧ o.deleted = false ∧ o.returnsStream = true ∧ o.bodyCompiles = false := by
  have nb : ∀ b i q, ¬ Calls l (.builtin b) (.own i) q := by
    intro b i q h
    obtain ⟨o, ho, _⟩ := calls_own h
    simp [Ty.ops] at ho
  have builtin : ∀ b, compiles l (.builtin b) = true ↔ ¬ (l.deletesWide = true ∧ (b = .wide ∨ b = .ptr .wide false)) := by
    intro b
    obtain ⟨n, w, x⟩ := l
    cases n <;> cases w <;> cases x <;> (cases b with
      | ptr o vol => cases o <;> cases vol <;> decide
      | _ => decide)
  have other : (∀ b, t ≠ .builtin b) → (compiles l t = true ↔ ¬ ∃ i o, Calls l t (.own i) (.std 0) ∧ t.ops[i]? = some o ∧ o.deleted = false ∧ o.returnsStream = true ∧ o.bodyCompiles = false) := by
    intro ht
    simp only [compiles, choose_other ht]
    cases hr : resolve l t with
    | none =>
      simp only [tested, hr, Bool.false_eq_true, if_false, true_iff]
      rintro ⟨i, o, h, _⟩
      rw [resolve_iff.2 h] at hr; cases hr
    | some x =>
      obtain ⟨c, q⟩ := x
      have hcalls := resolve_iff.1 hr
      simp only [tested, hr]
      by_cases hown : ∃ i, c = .own i
      · obtain ⟨i, rfl⟩ := hown
        obtain ⟨hq, o, ho, hc⟩ := viable_own.1 hcalls.1
        subst hq
        simp only [Ty.deleted, Ty.returnsStream, Ty.bodyCompiles, ho, Option.map_some, Option.getD_some]
        constructor
        · rintro h ⟨i', o', h', ho', hd, hs, hb⟩
          have := (calls_unique hcalls h').1
          cases this
          rw [ho] at ho'
          cases ho'
          simp [hd, hs, hb] at h
        · intro h
          by_cases hd : o.deleted = true
          · simp [hd]
          · by_cases hs : o.returnsStream = true
            · by_cases hb : o.bodyCompiles = true
              · simp [hd, hs, hb]
              · exact absurd ⟨i, o, hcalls, ho, by simpa using hd, hs, by simpa using hb⟩ h
            · simp [hs]
      · have hno : ¬ ∃ i o, Calls l t (.own i) (.std 0) ∧ t.ops[i]? = some o ∧ o.deleted = false ∧ o.returnsStream = true ∧ o.bodyCompiles = false := by
          rintro ⟨i, o, h, _⟩
          exact hown ⟨i, (calls_unique hcalls h).1⟩
        have hrs : t.returnsStream c = true := by cases c <;> first | rfl | exact absurd ⟨_, rfl⟩ hown
        have hbc : t.bodyCompiles c = true := by cases c <;> first | rfl | exact absurd ⟨_, rfl⟩ hown
        simp only [hrs, hbc, Bool.and_true, hno, not_false_eq_true, iff_true]
        cases t.deleted c <;> simp
  cases t with
  | builtin b =>
    rw [builtin]
    constructor
    · intro h
      refine ⟨fun h' => h ⟨h'.1, ?_⟩, ?_⟩
      · rcases h'.2 with e | e
        · exact .inl (by injection e)
        · exact .inr (by injection e)
      · rintro ⟨i, o, h', _⟩; exact nb _ _ _ h'
    · rintro ⟨h, _⟩ ⟨h1, h2⟩
      exact h ⟨h1, h2.imp (congrArg _) (congrArg _)⟩
  | enum s ops =>
    rw [other fun b => by simp]
    simp
  | cls ops convs =>
    rw [other fun b => by simp]
    simp

/-- `format` gives something exactly if the code compiles. -/
theorem format_isSome (l : Library) (mem : Nat → List Nat) (t : Ty) (v : Nat) : (format l mem t v).isSome = compiles l t := by
  unfold format compiles
  cases choose l t with
  | stream =>
    simp only
    cases resolve l t with
    | none => rfl
    | some x => cases hx : (!t.deleted x.1 && t.bodyCompiles x.1) <;> simp [hx]
  | _ => rfl

/-- **C89** is false: with the standard library of C++20 a method with a wide character, or a pointer to wide characters, as argument cannot be mocked. Before it could: the library prints a number or an address. -/
theorem C89_wide_characters_do_not_compile (l : Library) (mem : Nat → List Nat) (v : Nat) :
    (l.deletesWide = true → format l mem (.builtin .wide) v = none ∧ format l mem (.builtin (.ptr .wide false)) v = none) ∧
    (l.deletesWide = false → format l mem (.builtin .wide) v = some (.done (.number v)) ∧ format l mem (.builtin (.ptr .wide false)) v = some (.done (.address v))) := by
  simp only [C89_texts_of_builtin_types, Spec.shown]
  constructor <;> intro h <;> simp [h]

/-! ## Undefined behaviour -/

/-- **C89** (undefined behaviour, exactly): printing a value is undefined exactly if it reads a C string where there is none. -/
theorem C89_undefined_exactly (l : Library) (mem : Nat → List Nat) (t : Ty) (v : Nat) : format l mem t v = some .ub ↔ ∃ p, Reads l t v p ∧ ¬ TextAt mem p := by
  cases t with
  | builtin b =>
    rw [C89_texts_of_builtin_types]
    constructor
    · intro h
      cases b with
      | ptr o vol =>
        cases o <;> cases vol <;> simp only [Spec.shown] at h
        case char.false =>
          by_cases hv : v = 0
          · simp [hv] at h
          · by_cases ht : TextAt mem v
            · simp [hv, ht] at h
            · exact ⟨v, .char hv, ht⟩
        case schar.false =>
          by_cases ht : TextAt mem v
          · simp [bare, ht] at h
          · exact ⟨v, .schar, ht⟩
        case uchar.false =>
          by_cases ht : TextAt mem v
          · simp [bare, ht] at h
          · exact ⟨v, .uchar, ht⟩
        all_goals (first | cases h | (split at h <;> cases h))
      | wide => simp only [Spec.shown] at h; split at h <;> cases h
      | _ => simp only [Spec.shown] at h; cases h
    · rintro ⟨p, hr, ht⟩
      cases hr with
      | char h => simp [Spec.shown, h, ht]
      | schar => simp [Spec.shown, bare, ht]
      | uchar => simp [Spec.shown, bare, ht]
  | enum s ops =>
    constructor
    · intro h
      exfalso
      rw [format_other fun b => by simp] at h
      cases hr : resolve l (.enum s ops) with
      | none => simp [hr, formatWith] at h
      | some x =>
        obtain ⟨c, q⟩ := x
        have hw : write mem c (Ty.converted (.enum s ops) q v) ≠ .ub := by
          apply write_other
          intro hc
          have hno : ∀ i, c ≠ .own i := by
            rintro i rfl
            simp at hc
          have := ((viable_std hno).1 (resolve_iff.1 hr).1).2
          rcases hc with rfl | rfl | rfl | rfl <;> cases s <;> simp [Ty.seq, Cand.arithmetic] at this
        simp only [hr, formatWith] at h
        split at h
        · split at h
          · exact hw (Option.some.inj h)
          · cases h
        · simp at h
    · rintro ⟨p, hr, _⟩; cases hr
  | cls ops convs =>
    rw [format_other fun b => by simp]
    constructor
    · intro h
      cases hr : resolve l (.cls ops convs) with
      | none => simp [hr, formatWith] at h
      | some x =>
        obtain ⟨c, q⟩ := x
        have hcalls := resolve_iff.1 hr
        simp only [hr, formatWith] at h
        split at h
        · rename_i hd
          split at h
          · have hw := Option.some.inj h
            have hc : c = .text ∨ c = .stext ∨ c = .utext := by
              apply Classical.byContradiction
              intro hc
              refine write_other ?_ hw
              rintro (h | h | h | h)
              · exact hc (.inl h)
              · exact hc (.inr (.inl h))
              · exact hc (.inr (.inr h))
              · subst h; simp [Ty.deleted] at hd
            have hno : ∀ i, c ≠ .own i := by
              rintro i rfl
              simp at hc
            have hs := ((viable_std hno).1 hcalls.1).2
            cases q with
            | std r => exact absurd hs viaConv_not_std
            | ambiguous => exact absurd rfl hcalls.2.1
            | user f r =>
              obtain ⟨j, k, hj, hk, _⟩ := viaConv_user hs
              rw [Nat.zero_add] at hj
              subst hj
              rw [write_text hc] at hw
              simp only [Ty.converted, hk, Option.map_some, Option.getD_some, bare] at hw
              refine ⟨k.give v, .cls hcalls hc hk, ?_⟩
              intro ht
              rw [if_pos ht] at hw
              cases hw
          · cases h
        · simp at h
    · rintro ⟨p, hr, ht⟩
      cases hr with
      | @cls _ _ c f r k _ h hc hk =>
        rw [resolve_iff.2 h]
        have h1 : Ty.deleted (.cls ops convs) c = false := by rcases hc with rfl | rfl | rfl <;> rfl
        have h2 : Ty.returnsStream (.cls ops convs) c = true := by rcases hc with rfl | rfl | rfl <;> rfl
        have h3 : Ty.bodyCompiles (.cls ops convs) c = true := by rcases hc with rfl | rfl | rfl <;> rfl
        simp only [formatWith, h1, h2, h3, Bool.not_false, Bool.and_self, if_true, write_text hc, Ty.converted, hk, Option.map_some, Option.getD_some, bare, if_neg ht]

/-- **C89** (as far as it holds): if printing compiles and the argument is neither a pointer to characters nor a class, it is printed, with no undefined behaviour; what is missing is in `C89_what_compiles` and `C89_undefined_exactly`. -/
theorem C89_values_are_printed_partial (l : Library) (mem : Nat → List Nat) (t : Ty) (v : Nat) (hw : l.deletesWide = false ∨ (t ≠ .builtin .wide ∧ t ≠ .builtin (.ptr .wide false)))
    (ho : ∀ o, o ∈ t.ops → o.bodyCompiles = true) (hp : ∀ p, Reads l t v p → TextAt mem p) : ∃ s, format l mem t v = some (.done s) := by
  have hc : compiles l t = true := by
    rw [C89_what_compiles]
    refine ⟨?_, ?_⟩
    · rintro ⟨h1, h2⟩
      rcases hw with h | ⟨h, h'⟩
      · rw [h] at h1; cases h1
      · rcases h2 with e | e
        · exact h e
        · exact h' e
    · rintro ⟨i, o, _, h, _, _, hb⟩
      rw [ho o (List.mem_of_getElem? h)] at hb; cases hb
  rw [← format_isSome l mem t v] at hc
  cases hf : format l mem t v with
  | none => rw [hf] at hc; cases hc
  | some r =>
    cases r with
    | done s => exact ⟨s, rfl⟩
    | ub =>
      obtain ⟨p, h1, h2⟩ := (C89_undefined_exactly l mem t v).1 hf
      exact absurd (hp p h1) h2
    | oof =>
      exfalso
      revert hf
      have hwo : ∀ c x, write mem c x ≠ .oof := by
        intro c x
        have ht : (if x = 0 then R.ub else (R.ofOption (cstring (mem x))).bind fun s => R.done (Shown.rawText s)) ≠ .oof := by
          split
          · simp
          · cases cstring (mem x) with
            | none => intro h; cases h
            | some s => intro h; cases h
        cases c <;> first | exact ht | simp [write]
      unfold format
      cases choose l t with
      | stream =>
        simp only
        cases resolve l t with
        | none => simp
        | some x =>
          simp only
          split
          · intro h; exact hwo _ _ (Option.some.inj h)
          · simp
      | cstring =>
        simp only
        split
        · cases cstring (mem v) with
          | none => intro h; cases h
          | some s => intro h; cases h
        · intro h; cases h
      | _ => simp

/-- **C89** is false: pointers to bytes (`signed char`, `unsigned char`, that is `int8_t` and `uint8_t`) are read as C strings, so that a report of a call with a buffer that has no zero in it, or with a null pointer, is undefined
(a null `char*` is not). -/
theorem C89_byte_buffers_are_read_as_text (l : Library) (mem : Nat → List Nat) (o : Obj) (ho : o = .schar ∨ o = .uchar) (v : Nat) :
    (0 ∉ mem v → format l mem (.builtin (.ptr o false)) v = some .ub) ∧ format l mem (.builtin (.ptr o false)) 0 = some .ub ∧ format l mem (.builtin (.ptr .char false)) 0 = some (.done .null) ∧
    (∀ pre post, v ≠ 0 → (∀ b, b ∈ pre → b ≠ 0) → mem v = pre ++ 0 :: post → format l mem (.builtin (.ptr o false)) v = some (.done (.rawText pre))) := by
  refine ⟨fun h => ?_, ?_, ?_, ?_⟩
  · rcases ho with rfl | rfl <;> rw [C89_texts_of_builtin_types] <;> simp [Spec.shown, bare, TextAt, h]
  · rcases ho with rfl | rfl <;> rw [C89_texts_of_builtin_types] <;> simp [Spec.shown, bare, TextAt]
  · rw [C89_texts_of_builtin_types]; simp [Spec.shown]
  · intro pre post hv hpre hm
    have ht : TextAt mem v := ⟨hv, by rw [hm]; simp⟩
    have hx : textOf mem v = pre := by
      rw [textOf, hm, List.takeWhile_append_of_pos (by simpa using hpre)]
      simp
    rcases ho with rfl | rfl <;> rw [C89_texts_of_builtin_types] <;> simp [Spec.shown, bare, ht, hx]

/-- **C89** (the question mark, exactly): it is printed for values that are neither numbers nor pointers and for which `<<` means nothing, means two things equally well, or means a function that is deleted or does not return the stream. -/
theorem C89_question_mark (l : Library) (mem : Nat → List Nat) (t : Ty) (v : Nat) : format l mem t v = some (.done .question) ↔
    t.isArithmetic = false ∧ t.isPointer = false ∧ ¬ ∃ c q, Calls l t c q ∧ t.deleted c = false ∧ t.returnsStream c = true := by
  have hwr : ∀ c x, write mem c x ≠ .done .question := by
    intro c x
    have ht : (if x = 0 then R.ub else (R.ofOption (cstring (mem x))).bind fun s => R.done (Shown.rawText s)) ≠ .done .question := by
      split
      · simp
      · cases cstring (mem x) with
        | none => intro h; cases h
        | some s => intro h; cases h
    cases c <;> first | exact ht | simp [write]
  have htest : tested l t = false ↔ ¬ ∃ c q, Calls l t c q ∧ t.deleted c = false ∧ t.returnsStream c = true := by
    unfold tested
    cases hr : resolve l t with
    | none =>
      simp only [true_iff]
      rintro ⟨c, q, h, _⟩
      rw [resolve_iff.2 h] at hr; cases hr
    | some x =>
      obtain ⟨c, q⟩ := x
      have hc := resolve_iff.1 hr
      simp only
      constructor
      · rintro h ⟨c', q', h', hd, hs⟩
        obtain ⟨rfl, rfl⟩ := calls_unique hc h'
        simp [hd, hs] at h
      · intro h
        cases hd : t.deleted c <;> cases hs : t.returnsStream c <;> simp
        exact h ⟨c, q, hc, hd, hs⟩
  rw [← htest]
  unfold format
  constructor
  · intro h
    have hch : choose l t = .question := by
      cases hch : choose l t with
      | question => rfl
      | bool => rw [hch] at h; simp at h
      | char => rw [hch] at h; simp at h
      | cstring =>
        exfalso
        rw [hch] at h
        simp only [Option.some.injEq] at h
        split at h
        · cases hx : cstring (mem v) with
          | none => rw [hx] at h; cases h
          | some s => rw [hx] at h; cases h
        · cases h
      | stream =>
        exfalso
        rw [hch] at h
        simp only at h
        cases hr : resolve l t with
        | none => rw [hr] at h; cases h
        | some x =>
          rw [hr] at h
          simp only at h
          split at h
          · exact hwr _ _ (Option.some.inj h)
          · cases h
    have hi : isOstreamable l t = false := by
      cases hi : isOstreamable l t with
      | false => rfl
      | true =>
        exfalso
        revert hch
        unfold choose
        split <;> simp [hi]
    simp only [isOstreamable, Bool.or_eq_false_iff] at hi
    exact ⟨hi.1.1, hi.1.2, hi.2⟩
  · rintro ⟨h1, h2, h3⟩
    have hch : choose l t = .question := by
      unfold choose
      split
      · simp [Ty.isArithmetic, Builtin.arithmetic] at h1
      · simp [Ty.isArithmetic, Builtin.arithmetic] at h1
      · simp [Ty.isPointer] at h2
      · simp [isOstreamable, h1, h2, h3]
    rw [hch]

/-! ## Classes and enumerations -/

/-- **C89**: the only operator of a class or an enumeration that can take a constant and returns the stream is the one that is used, whatever else the type can be converted to. -/
theorem C89_own_operators_are_used (l : Library) (mem : Nat → List Nat) (t : Ty) (i : Nat) (o : Own) (v : Nat) (hi : t.ops[i]? = some o)
    (hc : o.takesConst = true) (hs : o.returnsStream = true) (hd : o.deleted = false) (hb : o.bodyCompiles = true) (honly : ∀ j o', t.ops[j]? = some o' → o'.takesConst = true → j = i) :
    format l mem t v = some (.done (.own i v)) := by
  have ht : ∀ b, t ≠ .builtin b := by
    rintro b rfl
    simp [Ty.ops] at hi
  have hcalls : Calls l t (.own i) (.std 0) := by
    refine ⟨viable_own.2 ⟨rfl, o, hi, hc⟩, by simp, ?_⟩
    intro c q hm hne
    by_cases hown : ∃ j, c = .own j
    · obtain ⟨j, rfl⟩ := hown
      obtain ⟨_, o', ho', hc'⟩ := viable_own.1 hm
      exact absurd (congrArg Cand.own (honly j o' ho' hc')) hne
    · have hq := ((viable_std fun j e => hown ⟨j, e⟩).1 hm).2
      cases t with
      | builtin b => exact absurd rfl (ht b)
      | enum s ops =>
        simp only [Ty.seq] at hq
        split at hq
        · cases hq
        · split at hq
          · cases hq
            simp only [Seq.better, decide_eq_true_eq]
            split <;> omega
          · cases hq
      | cls ops convs =>
        cases q with
        | std r => exact absurd hq viaConv_not_std
        | user f r => rfl
        | ambiguous => rfl
  rw [format_other ht, resolve_iff.2 hcalls]
  have hconv : t.converted (.std 0) v = v := by cases t <;> rfl
  simp [formatWith, Ty.deleted, Ty.returnsStream, Ty.bodyCompiles, hi, hs, hd, hb, hconv, write]

/-- What `<<` writes with a function of the standard library for values converted to its parameter; nothing can be done with deleted functions. -/
def Spec.written (mem : Nat → List Nat) (v : Nat) : Option Cand → R Shown
  | none => .done .question
  | some .wide => .done .question
  | some .wtext => .done .question
  | some .bool => .done (.flag (decide (v ≠ 0)))
  | some .char => .done (.raw v)
  | some .schar => .done (.raw v)
  | some .uchar => .done (.raw v)
  | some .int => .done (.number v)
  | some .float => .done (.number v)
  | some .address => .done (.address v)
  | some .vaddress => .done (.address v)
  | some .text => bare mem v
  | some .stext => bare mem v
  | some .utext => bare mem v
  | some .manip => .done .nothing
  | some .nullptr => .done .nullptr
  | some (.own i) => .done (.own i v)

/-- **C89**: a class without operators and with one conversion function is printed like `<<` prints what it is converted to; so `operator bool` shows `1` or `0` and not a word, and a null text is undefined. Without a usable `<<` there is a question mark. -/
theorem C89_conversions_are_used (l : Library) (mem : Nat → List Nat) (k : Conv) (v : Nat) : format l mem (.cls [] [k]) v = some (Spec.written mem (k.give v) (Spec.operatorFor l k.to)) := by
  rw [format_other fun b => by simp]
  have h1 : write mem .text (k.give v) = bare mem (k.give v) := write_text (.inl rfl)
  have h2 : write mem .stext (k.give v) = bare mem (k.give v) := write_text (.inr (.inl rfl))
  have h3 : write mem .utext (k.give v) = bare mem (k.give v) := write_text (.inr (.inr rfl))
  obtain ⟨b, g⟩ := k
  obtain ⟨n, w, x⟩ := l
  cases b with
  | ptr o vol =>
    cases o <;> cases vol
    case char.false => rw [Spec.operatorFor, Spec.written, ← h1]; cases n <;> cases w <;> cases x <;> rfl
    case schar.false => rw [Spec.operatorFor, Spec.written, ← h2]; cases n <;> cases w <;> cases x <;> rfl
    case uchar.false => rw [Spec.operatorFor, Spec.written, ← h3]; cases n <;> cases w <;> cases x <;> rfl
    all_goals cases n <;> cases w <;> cases x <;> rfl
  | _ => cases n <;> cases w <;> cases x <;> rfl

/-- **C89**: a class that can be converted to a number and to a pointer is printed as a question mark, though each conversion alone would be used; pointers to functions, and before C++23 to `volatile` objects, do not count. The order of the two functions is of no importance. -/
theorem C89_numbers_and_pointers_are_ambiguous (l : Library) (mem : Nat → List Nat) (b : Builtin) (o : Obj) (vol : Bool) (g h : Nat → Nat) (v : Nat) (hb : b ∈ [Builtin.bool, .char, .schar, .uchar, .wide, .int, .float]) (ho : o ≠ .fn) (hv : vol = true → l.printsVolatile = true ∨ o = .manip) :
    format l mem (.cls [] [⟨b, g⟩, ⟨.ptr o vol, h⟩]) v = some (.done .question) ∧ format l mem (.cls [] [⟨.ptr o vol, h⟩, ⟨b, g⟩]) v = some (.done .question) := by
  rw [format_other fun b => by simp, format_other fun b => by simp]
  have ha : b.arithmetic = true := by
    simp only [List.mem_cons, List.not_mem_nil, or_false] at hb
    rcases hb with rfl | rfl | rfl | rfl | rfl | rfl | rfl <;> rfl
  obtain ⟨h1, h2⟩ := resolve_number_and_pointer l b o vol ha ho hv
  rw [← resolve_two l b (.ptr o vol) g h] at h1
  rw [← resolve_two l (.ptr o vol) b h g] at h2
  rw [h1, h2]
  exact ⟨rfl, rfl⟩

/-- **C89** is false (identification): all functions, and all members, and before C++23 all `volatile` objects, are printed as `1`. -/
theorem C89_functions_print_alike (l : Library) (mem : Nat → List Nat) (vol : Bool) (v : Nat) (hv : v ≠ 0) :
    format l mem (.builtin (.ptr .fn vol)) v = some (.done (.flag true)) ∧ format l mem (.builtin .memberPtr) v = some (.done (.flag true)) ∧
    (l.printsVolatile = false → format l mem (.builtin (.ptr .data true)) v = some (.done (.flag true))) := by
  simp only [C89_texts_of_builtin_types, Spec.shown, hv, ne_eq, not_false_eq_true, decide_true, true_and]
  intro h; simp [h]

namespace Demo

/-- C++11 to C++14, and C++20. -/
def cpp11 : Library := ⟨false, false, false⟩
def cpp20 : Library := ⟨true, true, false⟩
/-- "hi" at address 8, two bytes without an end at address 16. -/
def mem : Nat → List Nat := fun p => if p = 8 then [104, 105, 0] else if p = 16 then [7, 9] else []
/-- An operator as it should be, one that takes variables only, one that is a template and does not compile for this type. -/
def good : Own := ⟨true, true, false, true⟩
def forVariables : Own := ⟨false, true, false, true⟩
def broken : Own := ⟨true, true, false, false⟩

/-- Built-in types: a number, a text, a null text, a function. -/
example : [format cpp11 mem (.builtin .int) 5, format cpp11 mem (.builtin (.ptr .char false)) 8, format cpp11 mem (.builtin (.ptr .char false)) 0, format cpp11 mem (.builtin (.ptr .fn false)) 8] =
    [some (.done (.number 5)), some (.done (.quotedText [104, 105])), some (.done .null), some (.done (.flag true))] := by decide +kernel

/-- `C89_what_compiles`: a class with a broken operator does not compile, one whose operator is for variables does. -/
example : compiles cpp20 (.cls [broken] []) = false ∧ compiles cpp20 (.cls [forVariables] []) = true ∧ compiles cpp20 (.builtin .wide) = false ∧ compiles cpp11 (.builtin .wide) = true := by decide +kernel

/-- The hypotheses of `C89_values_are_printed_partial` hold for an enumeration in C++20 and for a text. -/
example : ∃ s, format cpp20 mem (.enum false [forVariables]) 3 = some (.done s) :=
  C89_values_are_printed_partial cpp20 mem _ 3 (.inr ⟨by simp, by simp⟩) (by simp [Ty.ops, forVariables]) (by intro p h; cases h)
example : ∃ s, format cpp20 mem (.builtin (.ptr .uchar false)) 8 = some (.done s) :=
  C89_values_are_printed_partial cpp20 mem _ 8 (.inr ⟨by simp, by simp⟩) (by simp [Ty.ops]) (by intro p h; cases h; exact ⟨by decide, by simp [mem]⟩)

/-- The hypotheses of `C89_numbers_and_pointers_are_ambiguous` hold for a class with `operator int` and `operator const char*`; with `operator int` alone it is printed as a number. -/
example : format cpp11 mem (.cls [] [⟨.int, id⟩, ⟨.ptr .char false, fun _ => 8⟩]) 3 = some (.done .question) ∧ format cpp11 mem (.cls [] [⟨.int, id⟩]) 3 = some (.done (.number 3)) :=
  ⟨(C89_numbers_and_pointers_are_ambiguous cpp11 mem .int .char false id (fun _ => 8) 3 (by simp) (by decide) (by simp)).1, by decide +kernel⟩

/-- Two bytes that are no text. -/
example : format cpp20 mem (.builtin (.ptr .uchar false)) 16 = some .ub := ((C89_byte_buffers_are_read_as_text cpp20 mem .uchar (.inr rfl) 16).1 (by decide +kernel))

/-- A class that converts to a text, with an address that has none. -/
example : format cpp20 mem (.cls [] [⟨.ptr .char false, fun _ => 16⟩]) 1 = some .ub ∧ format cpp20 mem (.cls [] [⟨.ptr .char false, fun _ => 8⟩]) 1 = some (.done (.rawText [104, 105])) := by decide +kernel

/-- Question marks: strong enumerations, classes that can be converted in two ways, operators that do not take constants. -/
example : [format cpp20 mem (.enum true []) 3, format cpp20 mem (.cls [] [⟨.int, id⟩, ⟨.bool, id⟩]) 3, format cpp20 mem (.cls [forVariables] []) 3, format cpp20 mem (.cls [good, good] []) 3] =
    [some (.done .question), some (.done .question), some (.done .question), some (.done .question)] := by decide +kernel

/-- The operator wins over the conversions. -/
example : format cpp20 mem (.cls [forVariables, good] [⟨.int, id⟩, ⟨.bool, id⟩]) 3 = some (.done (.own 1 3)) :=
  C89_own_operators_are_used cpp20 mem _ 1 good 3 rfl rfl rfl rfl rfl (by
    intro j o' h hc
    match j with
    | 0 => simp [Ty.ops] at h; subst h; cases hc
    | 1 => rfl
    | j + 2 => simp [Ty.ops] at h)

end Demo

end FakeIt.Printing
