import Verif.Model.VTable
/-!
# C47: the virtual table layout is safe
-/
namespace FakeIt
variable {P : Type}

/-! ## Specification: a table with separate places for cookies, methods and type information -/

/-- What a table holds. -/
structure Spec.Table (P : Type) where
  cookie : Nat → P
  method : Nat → P
  rtti : P

/-- A fresh table. -/
def Spec.Table.fresh (null rtti : P) : Spec.Table P := { cookie := fun _ => null, method := fun _ => null, rtti }

/-- The meaning of the writes. In the Itanium layout the destructor has two entries, the first calling the given function and the second the wrapper; in
the MSVC layout it has one, the wrapper, and the given function is kept in the last cookie. -/
def Spec.Table.step (abi : Abi) (size : Nat) (a : Spec.Table P) : VOp P → Spec.Table P
  | .setCookie i v => { a with cookie := fun x => if x = i then v else a.cookie x }
  | .setMethod i v => { a with method := fun x => if x = i then v else a.method x }
  | .setDtor idx m w => match abi with
    | .itanium => { a with method := fun x => if x = idx + 1 then w else if x = idx then m else a.method x }
    | .msvc => { a with method := fun x => if x = idx then w else a.method x, cookie := fun x => if x = 2 then m else a.cookie x }
  | .initAll v => { a with method := fun x => if x < size then v else a.method x }

/-- Indices in range: two cookies (Itanium) or three (MSVC); method entries below the size; the destructor's entries too. -/
def Spec.Fits (abi : Abi) (size : Nat) : VOp P → Prop
  | .setCookie i _ => match abi with | .itanium => i < 2 | .msvc => i < 3
  | .setMethod i _ => i < size
  | .setDtor idx _ _ => match abi with | .itanium => idx + 1 < size | .msvc => idx < size
  | .initAll _ => True

open Spec

/-- The array holds exactly what the specification table says, each thing at its own place. -/
structure Spec.Holds (abi : Abi) (size : Nat) (t : VTab P) (a : Table P) : Prop where
  len : t.cells.length = size + 4
  first : t.first = 4
  method : ∀ i, i < size → t.cells[i + 4]? = some (a.method i)
  cookie : match abi with
    | .itanium => ∀ i, i < 2 → t.cells[1 - i]? = some (a.cookie i)
    | .msvc => ∀ i, i < 3 → t.cells[2 - i]? = some (a.cookie i)
  rtti : t.cells[3]? = some a.rtti

private theorem write_at {t : VTab P} {off : Int} {n : Nat} {v : P} (h : t.first + off = n) (hn : n < t.cells.length) :
    t.write off v = .done { t with cells := t.cells.set n v } := by
  unfold VTab.write
  rw [h, if_pos ⟨Int.natCast_nonneg _, by simpa using hn⟩]; simp

private theorem read_at {t : VTab P} {off : Int} {n : Nat} {v : P} (h : t.first + off = n) (hv : t.cells[n]? = some v) : t.read off = .done v := by
  unfold VTab.read
  rw [h, if_pos (Int.natCast_nonneg _)]; simp [hv]

private theorem set_get {l : List P} {i j : Nat} {v w : P} (h : l[j]? = some w) (hij : i ≠ j) : (l.set i v)[j]? = some w := by
  rw [List.getElem?_set_ne hij]; exact h

private theorem set_self {l : List P} {i : Nat} {v : P} (h : i < l.length) : (l.set i v)[i]? = some v := by
  rw [List.getElem?_set_self h]

/-- Writing method entry `i`. -/
private theorem writeMethod {abi : Abi} {size : Nat} {t : VTab P} {a : Table P} (h : Holds abi size t a) {i : Nat} (hi : i < size) (v : P) :
    ∃ t', t.write (i : Nat) v = .done t' ∧ Holds abi size t' { a with method := fun x => if x = i then v else a.method x } := by
  have hl := h.len
  refine ⟨_, write_at (n := i + 4) (by rw [h.first]; omega) (by omega), ⟨by simp [hl], h.first, fun j hj => ?_, ?_, ?_⟩⟩
  · by_cases e : j = i
    · subst e; simp only [if_true]; exact set_self (by omega)
    · simp only [if_neg e]; exact set_get (h.method j hj) (by omega)
  · have hc := h.cookie
    cases abi with
    | itanium => exact fun j hj => set_get (hc j hj) (by omega)
    | msvc => exact fun j hj => set_get (hc j hj) (by omega)
  · exact set_get h.rtti (by omega)

private theorem writeCookie {abi : Abi} {size : Nat} {t : VTab P} {a : Table P} (h : Holds abi size t a) {i : Nat}
    (hi : match abi with | .itanium => i < 2 | .msvc => i < 3) (v : P) :
    ∃ t', t.setCookie abi i v = .done t' ∧ Holds abi size t' { a with cookie := fun x => if x = i then v else a.cookie x } := by
  have hl := h.len
  cases abi with
  | itanium =>
    simp only at hi
    refine ⟨_, write_at (n := 1 - i) (by rw [h.first, Abi.cookieOff]; omega) (by omega), ⟨by simp [hl], h.first, fun j hj => ?_, ?_, ?_⟩⟩
    · exact set_get (h.method j hj) (by omega)
    · intro j hj
      by_cases e : j = i
      · subst e; simp only [if_true]; exact set_self (by omega)
      · simp only [if_neg e]; exact set_get (h.cookie j hj) (by omega)
    · exact set_get h.rtti (by omega)
  | msvc =>
    simp only at hi
    refine ⟨_, write_at (n := 2 - i) (by rw [h.first, Abi.cookieOff]; omega) (by omega), ⟨by simp [hl], h.first, fun j hj => ?_, ?_, ?_⟩⟩
    · exact set_get (h.method j hj) (by omega)
    · intro j hj
      by_cases e : j = i
      · subst e; simp only [if_true]; exact set_self (by omega)
      · simp only [if_neg e]; exact set_get (h.cookie j hj) (by omega)
    · exact set_get h.rtti (by omega)

private theorem initFrom_holds {abi : Abi} {size : Nat} (v : P) (left i : Nat) {t : VTab P} {a : Table P} (h : Holds abi size t a)
    (hi : i + left = size) :
    ∃ t', VTab.initFrom v left i t = .done t' ∧
      Holds abi size t' { a with method := fun x => if i ≤ x ∧ x < size then v else a.method x } := by
  induction left generalizing i t a with
  | zero =>
    refine ⟨t, rfl, ⟨h.len, h.first, fun j hj => ?_, h.cookie, h.rtti⟩⟩
    have : ¬ (i ≤ j ∧ j < size) := by omega
    simp only [if_neg this]; exact h.method j hj
  | succ n ih =>
    obtain ⟨t1, h1, h2⟩ := writeMethod h (i := i) (by omega) v
    obtain ⟨t2, h3, h4⟩ := ih (i + 1) h2 (by omega)
    refine ⟨t2, ?_, ?_⟩
    · rw [VTab.initFrom, VTab.setMethod, h1, R.bind_done, h3]
    · refine ⟨h4.len, h4.first, fun j hj => ?_, h4.cookie, h4.rtti⟩
      rw [h4.method j hj]
      by_cases e : j = i
      · subst e; simp [hj]
      · by_cases e2 : i ≤ j
        · simp [e2, hj, show i + 1 ≤ j by omega]
        · simp [e2, e, show ¬ i + 1 ≤ j by omega]

private theorem step_holds {abi : Abi} {size : Nat} {t : VTab P} {a : Table P} (h : Holds abi size t a) (op : VOp P) (hf : Fits abi size op) :
    ∃ t', t.step abi size op = .done t' ∧ Holds abi size t' (a.step abi size op) := by
  cases op with
  | setCookie i v => exact writeCookie h (by cases abi <;> exact hf) v
  | setMethod i v => exact writeMethod h hf v
  | setDtor idx m w =>
    cases abi with
    | itanium =>
      simp only [Fits] at hf
      obtain ⟨t1, h1, h2⟩ := writeMethod h (i := idx) (by omega) m
      obtain ⟨t2, h3, h4⟩ := writeMethod h2 (i := idx + 1) (by omega) w
      exact ⟨t2, by simp only [VTab.step, VTab.setDtor, h1, R.bind_done, h3], h4⟩
    | msvc =>
      simp only [Fits] at hf
      obtain ⟨t1, h1, h2⟩ := writeMethod h (i := idx) hf w
      obtain ⟨t2, h3, h4⟩ := writeCookie h2 (i := 2) (by simp) m
      exact ⟨t2, by simp only [VTab.step, VTab.setDtor, h1, R.bind_done]; exact h3, h4⟩
  | initAll v =>
    obtain ⟨t1, h1, h2⟩ := initFrom_holds v size 0 h (by omega)
    refine ⟨t1, h1, ?_⟩
    simpa [Table.step] using h2

/-- What the reading functions return for a table that holds `a`. -/
def Spec.Reads (abi : Abi) (size : Nat) (t : VTab P) (a : Table P) : Prop :=
  (∀ i, i < size → t.getMethod i = .done (a.method i)) ∧
  (match abi with
    | .itanium => ∀ i, i < 2 → t.getCookie .itanium i = .done (a.cookie i)
    | .msvc => ∀ i, i < 3 → t.getCookie .msvc i = .done (a.cookie i)) ∧
  t.read (-1) = .done a.rtti ∧
  t.dispose abi = .done (match abi with | .itanium => none | .msvc => some a.rtti)

private theorem holds_reads {abi : Abi} {size : Nat} {t : VTab P} {a : Table P} (h : Holds abi size t a) : Reads abi size t a := by
  refine ⟨fun i hi => ?_, ?_, ?_, ?_⟩
  · exact read_at (n := i + 4) (by rw [h.first]; omega) (h.method i hi)
  · have hc := h.cookie
    cases abi with
    | itanium => exact fun i hi => read_at (n := 1 - i) (by rw [h.first, Abi.cookieOff]; omega) (hc i hi)
    | msvc => exact fun i hi => read_at (n := 2 - i) (by rw [h.first, Abi.cookieOff]; omega) (hc i hi)
  · exact read_at (n := 3) (by rw [h.first]; rfl) h.rtti
  · cases abi with
    | itanium => simp [VTab.dispose, h.first, Abi.numOfCookies]
    | msvc =>
      have hr : VTab.read { t with first := t.first - 1 } 0 = .done a.rtti := read_at (n := 3) (by simp [h.first]) h.rtti
      simp only [VTab.dispose, hr, R.bind_done]; simp [h.first, Abi.numOfCookies]

/-- **C47**. For every layout, table size and sequence of writes with indices in range: building the table and making the writes touches only cells of
the allocated array; afterwards every method entry and every cookie reads back what was last written to it (so they occupy distinct cells), the type
information is intact, and disposing frees exactly the allocated block. -/
theorem C47_table_accesses_are_in_range_and_independent (abi : Abi) (size : Nat) (null rtti : P) (ops : List (VOp P))
    (hf : ∀ o ∈ ops, Fits abi size o) :
    ∃ t0 t, buildVTArray abi size null rtti = .done t0 ∧ VTab.run abi size ops t0 = .done t ∧
      Reads abi size t (ops.foldl (Table.step abi size) (Table.fresh null rtti)) := by
  have hbuild : ∃ t0, buildVTArray abi size null rtti = .done t0 ∧ Holds abi size t0 (Table.fresh null rtti) := by
    cases abi with
    | itanium =>
      have hw : VTab.write { cells := List.replicate (size + 2 + 2) null, first := 3 } 0 rtti =
          .done { cells := (List.replicate (size + 2 + 2) null).set 3 rtti, first := 3 } := write_at (n := 3) rfl (by simp)
      refine ⟨_, by simp only [buildVTArray, Abi.numOfCookies]; exact congrArg (· >>= _) hw, ⟨by simp, rfl, ?_, ?_, ?_⟩⟩
      · intro i hi
        exact set_get (by rw [List.getElem?_replicate, if_pos (by omega)]; rfl) (by omega)
      · intro i hi
        exact set_get (by rw [List.getElem?_replicate, if_pos (by omega)]; rfl) (by omega)
      · exact set_self (by simp)
    | msvc =>
      have hw : VTab.write { cells := List.replicate (size + 3 + 1) null, first := 3 } 0 rtti =
          .done { cells := (List.replicate (size + 3 + 1) null).set 3 rtti, first := 3 } := write_at (n := 3) rfl (by simp)
      refine ⟨_, by simp only [buildVTArray, Abi.numOfCookies]; exact congrArg (· >>= _) hw, ⟨by simp, rfl, ?_, ?_, ?_⟩⟩
      · intro i hi
        exact set_get (by rw [List.getElem?_replicate, if_pos (by omega)]; rfl) (by omega)
      · intro i hi
        exact set_get (by rw [List.getElem?_replicate, if_pos (by omega)]; rfl) (by omega)
      · exact set_self (by simp)
  obtain ⟨t0, h0, hh0⟩ := hbuild
  have hrun : ∀ (ops : List (VOp P)) (t : VTab P) (a : Table P), (∀ o ∈ ops, Fits abi size o) → Holds abi size t a →
      ∃ t', VTab.run abi size ops t = .done t' ∧ Holds abi size t' (ops.foldl (Table.step abi size) a) := by
    intro ops
    induction ops with
    | nil => intro t a _ h; exact ⟨t, rfl, h⟩
    | cons o os ih =>
      intro t a hf h
      obtain ⟨t1, h1, h2⟩ := step_holds h o (hf o (by simp))
      obtain ⟨t2, h3, h4⟩ := ih t1 _ (fun o' ho => hf o' (by simp [ho])) h2
      exact ⟨t2, by simp only [VTab.run, h1, R.bind_done, h3], h4⟩
  obtain ⟨t, h1, h2⟩ := hrun ops t0 _ hf hh0
  exact ⟨t0, t, h0, h1, holds_reads h2⟩

/-- **C47** (destructor). After `setDtor`, what the destructor wrapper calls is the given function, in both layouts. -/
theorem C47_destructor_wrapper_calls_the_given_function {abi : Abi} {size idx : Nat} {t : VTab P} {a : Table P} {m w : P} (h : Holds abi size t a)
    (hf : Fits abi size (.setDtor idx m w)) : ∃ t', t.setDtor abi idx m w = .done t' ∧ t'.dtorTarget abi idx = .done m := by
  obtain ⟨t', h1, h2⟩ := step_holds h (.setDtor idx m w) hf
  refine ⟨t', h1, ?_⟩
  have hr := holds_reads h2
  cases abi with
  | itanium =>
    simp only [Fits] at hf
    have := hr.1 idx (by omega)
    simpa [VTab.dtorTarget, Table.step] using this
  | msvc =>
    have := hr.2.1 2 (by omega)
    simpa [VTab.dtorTarget, Table.step, dtorCookieIndex, Abi.numOfCookies] using this

private theorem copyLoop_holds {abi : Abi} {size : Nat} {src : VTab P} {f : Nat → P} (hg : ∀ i, i < size → src.getMethod i = .done (f i)) :
    ∀ (left i : Nat) (t : VTab P) (a : Table P), Holds abi size t a → i + left = size →
      ∃ t', VTab.copyLoop src left i t = .done t' ∧
        Holds abi size t' { a with method := fun x => if i ≤ x ∧ x < size then f x else a.method x } := by
  intro left
  induction left with
  | zero =>
    intro i t a h hi
    refine ⟨t, rfl, ⟨h.len, h.first, fun j hj => ?_, h.cookie, h.rtti⟩⟩
    have : ¬ (i ≤ j ∧ j < size) := by omega
    simp only [if_neg this]; exact h.method j hj
  | succ n ih =>
    intro i t a h hi
    obtain ⟨t1, h1, h2⟩ := writeMethod h (i := i) (by omega) (f i)
    obtain ⟨t2, h3, h4⟩ := ih (i + 1) t1 _ h2 (by omega)
    refine ⟨t2, ?_, ?_⟩
    · rw [VTab.copyLoop, hg i (by omega), R.bind_done, h1, R.bind_done, h3]
    · refine ⟨h4.len, h4.first, fun j hj => ?_, h4.cookie, h4.rtti⟩
      rw [h4.method j hj]
      by_cases e : j = i
      · subst e; simp [hj]
      · by_cases e2 : i ≤ j
        · simp [e2, hj, show i + 1 ≤ j by omega]
        · simp [e2, e, show ¬ i + 1 ≤ j by omega]

/-- **C47** (copying from a table of the library). `copyFrom` makes every method entry equal to the source's and leaves the type information alone; in
the MSVC layout the destructor cookie is copied if there is a virtual destructor, the other cookies are untouched. -/
theorem C47_copyFrom_copies_every_entry {abi : Abi} {size : Nat} {t src : VTab P} {a b : Table P} (h : Holds abi size t a) (hs : Holds abi size src b)
    (hasDtor : Bool) :
    ∃ t', t.copyFrom abi src size hasDtor = .done t' ∧
      Reads abi size t' { a with
        method := fun x => if x < size then b.method x else a.method x,
        cookie := fun x => if abi = .msvc ∧ hasDtor = true ∧ x = 2 then b.cookie 2 else a.cookie x } := by
  obtain ⟨t1, h1, h2⟩ := copyLoop_holds (holds_reads hs).1 size 0 t a h (by omega)
  simp only [Nat.zero_le, true_and] at h2
  by_cases hc : abi = .msvc ∧ hasDtor = true
  · obtain ⟨rfl, rfl⟩ := hc
    have hg : src.getCookie .msvc dtorCookieIndex = .done (b.cookie 2) := (holds_reads hs).2.1 2 (by omega)
    obtain ⟨t2, h3, h4⟩ := writeCookie h2 (i := 2) (by simp) (b.cookie 2)
    refine ⟨t2, by simp only [VTab.copyFrom, h1, R.bind_done, hg]; exact h3, ?_⟩
    have := holds_reads h4
    simpa using this
  · refine ⟨t1, ?_, ?_⟩
    · simp only [VTab.copyFrom, h1, R.bind_done]
      cases abi <;> cases hasDtor <;> simp at hc ⊢
    · have := holds_reads h2
      have hc' : ∀ x : Nat, ¬ (abi = .msvc ∧ hasDtor = true ∧ x = 2) := fun x h => hc ⟨h.1, h.2.1⟩
      simpa only [if_neg (hc' _)] using this

/-- The table the compiler made for a class: what precedes the functions (Itanium: the offset to the top and the type information; MSVC: the complete
object locator), then the functions. The library's cookies are not there. -/
structure Spec.CompilersTable (abi : Abi) (src : VTab P) (info methods : List P) : Prop where
  cells : src.cells = info ++ methods
  first : src.first = info.length
  info : info.length = match abi with | .itanium => 2 | .msvc => 1

/-- Reading the functions of the compiler's table. -/
private theorem compilers_getMethod {abi : Abi} {src : VTab P} {info methods : List P} (hs : CompilersTable abi src info methods) {i : Nat}
    (hi : i < methods.length) : src.getMethod i = .done methods[i] :=
  read_at (n := info.length + i) (by rw [hs.first]; omega) (by rw [hs.cells]; simp [hi])

/-- **C47** (copying from the table of a spied object), partial: for every class of at least `size` functions, in the Itanium layout, and in the MSVC
layout for classes without a virtual destructor, `copyFrom` reads only the compiler's table, makes every method entry equal to the function there and
leaves cookies and type information alone. Missing: MSVC with a virtual destructor, see the next theorem. -/
theorem C47_copying_a_real_table_partial {abi : Abi} {size : Nat} {t src : VTab P} {a : Table P} {info methods : List P} {hasDtor : Bool}
    (h : Holds abi size t a) (hs : CompilersTable abi src info methods) (hm : methods.length = size) (hd : abi = .itanium ∨ hasDtor = false) :
    ∃ t', t.copyFrom abi src size hasDtor = .done t' ∧
      Reads abi size t' { a with method := fun x => (methods[x]?).getD (a.method x) } := by
  obtain ⟨t1, h1, h2⟩ := copyLoop_holds (f := fun x => (methods[x]?).getD (a.method x)) (src := src) (size := size)
    (fun i hi => by rw [compilers_getMethod hs (i := i) (by omega)]; simp [show i < methods.length by omega]) size 0 t a h (by omega)
  refine ⟨t1, ?_, ?_⟩
  · simp only [VTab.copyFrom, h1, R.bind_done]
    rcases hd with rfl | rfl
    · rfl
    · cases abi <;> rfl
  · apply holds_reads
    refine ⟨h2.len, h2.first, fun j hj => ?_, h2.cookie, h2.rtti⟩
    rw [h2.method j hj]; simp [hj]

/-- **C47** fails for spies of classes with a virtual destructor on MSVC: for every class and every table of the library, `copyFrom` reads a cookie of the
compiler's table, which has none: three cells in front of its beginning. -/
theorem C47_copying_reads_in_front_of_a_real_table {size : Nat} {t src : VTab P} {a : Table P} {info methods : List P}
    (h : Holds .msvc size t a) (hs : CompilersTable .msvc src info methods) (hm : methods.length = size) :
    t.copyFrom .msvc src size true = .ub := by
  obtain ⟨t1, h1, -⟩ := copyLoop_holds (f := fun x => (methods[x]?).getD (a.method x)) (src := src) (size := size)
    (fun i hi => by rw [compilers_getMethod hs (i := i) (by omega)]; simp [show i < methods.length by omega]) size 0 t a h (by omega)
  have hi := hs.info
  simp only at hi
  have : src.getCookie .msvc dtorCookieIndex = .ub := by
    unfold VTab.getCookie VTab.read
    rw [if_neg]
    rw [hs.first, hi]
    decide
  simp only [VTab.copyFrom, h1, R.bind_done, this]
  rfl

namespace Demo

/-- A table of five entries: cookies, a method, the destructor at entries 1 and 2, and a later overwrite. -/
def tableWrites : List (VOp Nat) := [.initAll 9, .setCookie 0 70, .setCookie 1 71, .setMethod 4 50, .setDtor 1 60 61, .setMethod 4 51]

example : ∀ o ∈ tableWrites, Fits .itanium 5 o := by simp [tableWrites, Fits]
example : ∀ o ∈ tableWrites, Fits .msvc 5 o := by simp [tableWrites, Fits]
example : (do let t ← buildVTArray .itanium 5 0 8; let t ← VTab.run .itanium 5 tableWrites t; .done t.cells) = .done [71, 70, 0, 8, 9, 60, 61, 9, 51] := by
  decide +kernel
example : (do let t ← buildVTArray .msvc 5 0 8; let t ← VTab.run .msvc 5 tableWrites t; .done t.cells) = .done [60, 71, 70, 8, 9, 61, 9, 9, 51] := by
  decide +kernel
/-- One cookie too many in the Itanium layout is out of range. -/
example : (do let t ← buildVTArray .itanium 5 0 8; let _ ← t.setCookie .itanium 2 7; .done true) = .ub := by decide +kernel

/-- The compiler's tables of a class with two functions; copying them with and without a virtual destructor. -/
example : CompilersTable .itanium (⟨[0, 8, 31, 32], 2⟩ : VTab Nat) [0, 8] [31, 32] := ⟨rfl, rfl, rfl⟩
example : CompilersTable .msvc (⟨[8, 31, 32], 1⟩ : VTab Nat) [8] [31, 32] := ⟨rfl, rfl, rfl⟩
example : (do let t ← buildVTArray .itanium 2 0 8; let t ← t.copyFrom .itanium ⟨[0, 8, 31, 32], 2⟩ 2 true; .done t.cells) = .done [0, 0, 0, 8, 31, 32] := by
  decide +kernel
example : (do let t ← buildVTArray .msvc 2 0 8; let t ← t.copyFrom .msvc ⟨[8, 31, 32], 1⟩ 2 false; .done t.cells) = .done [0, 0, 0, 8, 31, 32] := by
  decide +kernel
example : (do let t ← buildVTArray .msvc 2 0 8; let t ← t.copyFrom .msvc ⟨[8, 31, 32], 1⟩ 2 true; .done t.cells) = .ub := by decide +kernel

end Demo
end FakeIt
