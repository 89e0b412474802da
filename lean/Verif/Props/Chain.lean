import Verif.Model.Chain
import Verif.Props.Stubbing
/-!
# C64: stubbing chains are read from left to right
-/
namespace FakeIt
variable {V E : Type} {P : Prog V E} {nm : MockId → Nat → Nat}

namespace Spec

/-- The answers an argument stands for. -/
def itemAnswers {X Y : Type} (mk : X → Y) : Item X → List Y
  | .one x => [mk x]
  | .times n x => List.replicate n.toNat (mk x)

/-- The answers a call of a chain stands for. -/
def linkAnswers : Link V E → List (Perf V E)
  | .ret f more => (f :: more).flatMap (itemAnswers fun v => .fn (.ret v))
  | .retDefault => [.dflt]
  | .retTimes n => List.replicate n.toNat .dflt
  | .thr f more => (f :: more).flatMap (itemAnswers fun e => .fn (.thr e))
  | .do_ f more => (f :: more).flatMap (itemAnswers .fn)
  | _ => []

/-- The answer given for ever from here on. -/
def linkAlways : Link V E → Option (Perf V E)
  | .alwaysRet v => some (.fn (.ret v))
  | .alwaysRetDefault => some .dflt
  | .alwaysThr e => some (.fn (.thr e))
  | .alwaysDo f => some (.fn f)
  | _ => none

/-- What call number `i` (from 0) is answered with: the answers of the chain in the order they are written; `none` if there are no more. -/
def promised : List (Link V E) → Nat → Option (Perf V E)
  | [], _ => none
  | l :: ls, i =>
    match (linkAnswers l)[i]? with
    | some p => some p
    | none =>
      match linkAlways l with
      | some p => some p
      | none => promised ls (i - (linkAnswers l).length)

/-- Quantities are at least 1 (see C03 for others). -/
def itemOk {X : Type} : Item X → Prop
  | .one _ => True
  | .times n _ => 1 ≤ n

/-- All quantities are at least 1. -/
def linkOk : Link V E → Prop
  | .ret f more => ∀ x ∈ f :: more, itemOk x
  | .thr f more => ∀ x ∈ f :: more, itemOk x
  | .do_ f more => ∀ x ∈ f :: more, itemOk x
  | .retTimes n => 1 ≤ n
  | _ => True

end Spec
open Spec

/-- The action of an item. -/
private def itemAct {X : Type} (mk : X → Fn V E) : Item X → Act V E
  | .one x => .rep 1 (mk x)
  | .times n x => .rep n (mk x)

private theorem appendItems_eq {X : Type} (mk : X → Fn V E) : ∀ (acts : List (Act V E)) (f : Item X) (more : List (Item X)),
    appendItems mk acts f more = acts ++ (f :: more).map (itemAct mk)
  | acts, f, [] => by cases f <;> rfl
  | acts, f, s :: t => by
    rw [appendItems, appendItems_eq mk _ s t]
    cases f <;> simp [appendItem, itemAct]

/-- The actions of a link. -/
private def linkActs (d : Option (Fn V E)) : Link V E → Option (List (Act V E))
  | .ret f more => some ((f :: more).map (itemAct .ret))
  | .retDefault => d.map fun d => [.rep 1 d]
  | .retTimes n => d.map fun d => [.rep n d]
  | .thr f more => some ((f :: more).map (itemAct .thr))
  | .do_ f more => some ((f :: more).map (itemAct id))
  | .alwaysRet v => some [.forever (.ret v)]
  | .alwaysRetDefault => d.map fun d => [.forever d]
  | .alwaysThr e => some [.forever (.thr e)]
  | .alwaysDo f => some [.forever f]

private theorem append_eq (c : ClassDecl V) (off : Nat) (acts : List (Act V E)) (l : Link V E) :
    l.append P c off acts = (linkActs (dfltFn P c off) l).map (acts ++ ·) := by
  cases l <;> simp [Link.append, linkActs, appendItems_eq] <;> cases dfltFn P c off <;> simp

private theorem chain_map (c : ClassDecl V) (off : Nat) : ∀ (ls : List (Link V E)) (acts : List (Act V E)),
    chainActs P c off acts ls = (chainActs P c off [] ls).map (acts ++ ·)
  | [], acts => by simp [chainActs]
  | l :: ls, acts => by
    simp only [chainActs, append_eq]
    cases linkActs (dfltFn P c off) l with
    | none => rfl
    | some a =>
      simp only [Option.map_some, Option.bind_some, List.nil_append]
      rw [chain_map c off ls (acts ++ a), chain_map c off ls a, Option.map_map]
      congr 1
      funext x
      simp

private theorem chain_eq (c : ClassDecl V) (off : Nat) (ls : List (Link V E)) (acts acts' : List (Act V E)) (h : chainActs P c off acts ls = some acts') :
    ∃ as, chainActs P c off [] ls = some as ∧ acts' = acts ++ as := by
  rw [chain_map, Option.map_eq_some_iff] at h
  obtain ⟨as, h, rfl⟩ := h
  exact ⟨as, h, rfl⟩

/-- `p'` answers whatever `p` does. -/
private def Implies (P : Prog V E) (c : ClassDecl V) (spied : Bool) (off : Nat) (p p' : Option (Perf V E)) : Prop :=
  ∀ vs o, Answers P c spied off vs p o → Answers P c spied off vs p' o

private theorem dflt_implies {c : ClassDecl V} {spied : Bool} {off : Nat} {d : Fn V E} (h : dfltFn P c off = some d) :
    Implies P c spied off (some (.fn d)) (some .dflt) := by
  intro vs o ho
  simp only [dfltFn] at h
  simp only [Answers] at ho ⊢
  cases hd : c.dflt off <;> simp only [hd] at h ⊢ <;> cases h <;> exact ho

private theorem performed_items {X : Type} (mk : X → Fn V E) (rest : List (Act V E)) : ∀ (l : List (Item X)) (i : Nat), (∀ x ∈ l, itemOk x) →
    performed (l.map (itemAct mk) ++ rest) i =
      match (l.flatMap (itemAnswers fun x => Perf.fn (mk x)))[i]? with
      | some p => some p
      | none => performed rest (i - (l.flatMap (itemAnswers fun x => Perf.fn (mk x))).length)
  | [], i, _ => by simp
  | x :: l, i, h => by
    have hl : ∀ x ∈ l, itemOk x := fun y hy => h y (List.mem_cons_of_mem _ hy)
    obtain ⟨n, y, hact, hans, hn⟩ : ∃ (n : Int) (y : X), itemAct mk x = .rep n (mk y) ∧
        itemAnswers (fun x => (Perf.fn (mk x) : Perf V E)) x = List.replicate n.toNat (.fn (mk y)) ∧ 1 ≤ n := by
      cases x with
      | one y => exact ⟨1, y, rfl, rfl, Int.le_refl _⟩
      | times n y => exact ⟨n, y, rfl, rfl, h _ List.mem_cons_self⟩
    simp only [List.map_cons, List.cons_append, hact, performed, List.flatMap_cons, hans]
    split
    · rename_i hi
      rw [List.getElem?_append_left (by simp; omega), List.getElem?_replicate, if_pos (by omega)]
    · rename_i hi
      rw [performed_items mk rest l _ hl, List.getElem?_append_right (by simp; omega)]
      simp only [List.length_append, List.length_replicate]
      rw [Nat.sub_sub]

private theorem performed_link {c : ClassDecl V} {spied : Bool} {off : Nat} {l : Link V E} {as : List (Act V E)} (h : linkActs (dfltFn P c off) l = some as)
    (hok : linkOk l) (rest : List (Act V E)) (i : Nat) :
    match (linkAnswers l)[i]? with
    | some p => Implies P c spied off (performed (as ++ rest) i) (some p)
    | none =>
      match linkAlways l with
      | some p => Implies P c spied off (performed (as ++ rest) i) (some p)
      | none => performed (as ++ rest) i = performed rest (i - (linkAnswers l).length) := by
  have items : ∀ {X : Type} (mk : X → Fn V E) (l : List (Item X)), (∀ x ∈ l, itemOk x) →
      match (l.flatMap (itemAnswers fun x => Perf.fn (mk x)))[i]? with
      | some p => Implies P c spied off (performed (l.map (itemAct mk) ++ rest) i) (some p)
      | none => performed (l.map (itemAct mk) ++ rest) i = performed rest (i - (l.flatMap (itemAnswers fun x => Perf.fn (mk x))).length) := by
    intro X mk l hl
    have := performed_items mk rest l i hl
    split <;> rename_i hx <;> rw [hx] at this
    · rw [this]; exact fun _ _ h => h
    · exact this
  cases l with
  | ret f more => cases h; simpa only [linkAnswers, linkAlways] using items .ret (f :: more) hok
  | thr f more => cases h; simpa only [linkAnswers, linkAlways] using items .thr (f :: more) hok
  | do_ f more => cases h; simp only [linkAnswers, linkAlways]; exact items id (f :: more) hok
  | retDefault =>
    simp only [linkActs, Option.map_eq_some_iff] at h
    obtain ⟨d, hd, rfl⟩ := h
    cases i with
    | zero => simp only [linkAnswers, List.getElem?_cons_zero, List.cons_append, performed]; exact dflt_implies hd
    | succ i =>
      simp only [linkAnswers, List.getElem?_cons_succ, List.getElem?_nil, linkAlways, List.cons_append, performed]
      rw [if_neg (by omega)]; rfl
  | retTimes n =>
    simp only [linkActs, Option.map_eq_some_iff] at h
    obtain ⟨d, hd, rfl⟩ := h
    have hn : 1 ≤ n := hok
    simp only [linkAnswers, List.getElem?_replicate, List.cons_append, List.nil_append, performed, linkAlways, List.length_replicate]
    split
    · rename_i hi
      split at hi
      · cases hi
        rw [if_pos (by omega)]; exact dflt_implies hd
      · cases hi
    · rename_i hi
      split at hi
      · cases hi
      · rw [if_neg (by omega)]
  | alwaysRet v => cases h; exact fun _ _ h => h
  | alwaysThr e => cases h; exact fun _ _ h => h
  | alwaysDo f => cases h; exact fun _ _ h => h
  | alwaysRetDefault =>
    simp only [linkActs, Option.map_eq_some_iff] at h
    obtain ⟨d, hd, rfl⟩ := h
    exact dflt_implies hd

private theorem performed_chain {c : ClassDecl V} {spied : Bool} {off : Nat} : ∀ {ls : List (Link V E)} {as : List (Act V E)},
    chainActs P c off [] ls = some as → (∀ l ∈ ls, linkOk l) → ∀ i, Implies P c spied off (performed as i) (promised ls i)
  | [], as, h, _, i => by cases h; exact fun _ _ h => h
  | l :: ls, as, h, hok, i => by
    simp only [chainActs, append_eq, Option.bind_eq_some_iff, Option.map_eq_some_iff] at h
    obtain ⟨b, ⟨a, ha, rfl⟩, h⟩ := h
    obtain ⟨as', h1, rfl⟩ := chain_eq c off ls _ _ h
    have hl := performed_link (spied := spied) ha (hok l List.mem_cons_self) as' i
    simp only [List.nil_append, promised]
    split
    · rename_i p hp; simp only [hp] at hl; exact hl
    · rename_i hp
      simp only [hp] at hl
      split
      · rename_i p hp'; simp only [hp'] at hl; exact hl
      · rename_i hp'
        simp only [hp'] at hl
        rw [hl]
        exact performed_chain h1 (fun l h => hok l (List.mem_cons_of_mem _ h)) _

private theorem writable_chain {c : ClassDecl V} {off : Nat} : ∀ {ls : List (Link V E)} {as : List (Act V E)},
    chainActs P c off [] ls = some as → (∀ l ∈ ls, linkOk l) → WritableActs as
  | [], as, h, _ => by cases h; intro a ha; cases ha
  | l :: ls, as, h, hok => by
    simp only [chainActs, append_eq, Option.bind_eq_some_iff, Option.map_eq_some_iff] at h
    obtain ⟨b, ⟨a, ha, rfl⟩, h⟩ := h
    obtain ⟨as', h1, rfl⟩ := chain_eq c off ls _ _ h
    have hrest := writable_chain h1 (fun l h => hok l (List.mem_cons_of_mem _ h))
    have hl := hok l List.mem_cons_self
    have items : ∀ {X : Type} (mk : X → Fn V E) (l : List (Item X)), (∀ x ∈ l, itemOk x) → WritableActs (l.map (itemAct mk)) := by
      intro X mk l hl a ha
      obtain ⟨x, hx, rfl⟩ := List.mem_map.1 ha
      have := hl x hx
      cases x with
      | one y => exact Int.le_refl _
      | times n y => exact this
    have hfirst : WritableActs a := by
      cases l with
      | ret f more => cases ha; exact items _ _ hl
      | thr f more => cases ha; exact items _ _ hl
      | do_ f more => cases ha; exact items _ _ hl
      | retDefault =>
        simp only [linkActs, Option.map_eq_some_iff] at ha
        obtain ⟨d, -, rfl⟩ := ha
        intro x hx; simp at hx; subst hx; exact Int.le_refl _
      | retTimes n =>
        simp only [linkActs, Option.map_eq_some_iff] at ha
        obtain ⟨d, -, rfl⟩ := ha
        intro x hx; simp at hx; subst hx; exact hl
      | alwaysRetDefault =>
        simp only [linkActs, Option.map_eq_some_iff] at ha
        obtain ⟨d, -, rfl⟩ := ha
        intro x hx; simp at hx; subst hx; trivial
      | alwaysRet v => cases ha; intro x hx; simp at hx; subst hx; trivial
      | alwaysThr v => cases ha; intro x hx; simp at hx; subst hx; trivial
      | alwaysDo v => cases ha; intro x hx; simp at hx; subst hx; trivial
    intro x hx
    simp only [List.nil_append, List.mem_append] at hx
    rcases hx with hx | hx
    · exact hfirst x hx
    · exact hrest x hx

/-- C64: after `When(method).<chain>;` the `n`-th call (counting from 0) served by this stubbing is answered as the chain says when its answers are counted from left
to right: all arguments of a `Return`, `Throw` or `Do` in order, an argument with a quantity that many times, `Return()` with the default value, `Always...` for
ever, and nothing (an unexpected call) after the last one. Between the calls the test does what it likes (`Trace`). Quantities are at least 1; C03 tells what happens otherwise. -/
theorem C64_chains_are_read_from_left_to_right_partial {c : ClassDecl V} {spied : Bool} {m off j n fuel : Nat} {kind : MatcherKind V} {chain : List (Link V E)}
    {acts : List (Act V E)} {w0 w1 w2 w3 : World V E} {args : List (Arg V)} {o : Outcome V E} (hc : chainActs P c off [] chain = some acts)
    (hok : ∀ l ∈ chain, linkOk l) (hP : P.NonReentrant nm c m off (fun _ => True)) (hs : Stubbed P nm c spied m off kind acts j w0 w1)
    (ht : Trace P nm c m off (fun _ => True) j w1 n w2) (hp : Picks w2 m off args j) (hcall : callSlot P fuel w2 m off args = .done (o, w3)) :
    Answers P c spied off (valuesOf w2.heap args) (promised chain n) o :=
  performed_chain hc hok n _ _ (C02_script_in_order hP (writable_chain hc hok) hs ht hp hcall)

namespace Demo

/-- `.Return(2_Times(5)).Throw(9).Do(f1)` -/
def chain1 : List (Link Nat Nat) := [.ret (.times 2 5) [], .thr (.one 9) [], .do_ (.one (.user 1)) []]

theorem chain1_ok : ∀ l ∈ chain1, linkOk l := by
  intro l hl
  simp only [chain1, List.mem_cons, List.not_mem_nil, or_false] at hl
  rcases hl with rfl | rfl | rfl <;> simp [linkOk, itemOk]

/-- `.Return(1, 2_Times(5), 3).Return().AlwaysThrow(9)`, the answers of the first seven calls. -/
example : (List.range 7).map (promised ([.ret (.one 1) [.times 2 5, .one 3], .retDefault, .alwaysThr 9] : List (Link Nat Nat))) =
    [some (.fn (.ret 1)), some (.fn (.ret 5)), some (.fn (.ret 5)), some (.fn (.ret 3)), some .dflt, some (.fn (.thr 9)), some (.fn (.thr 9))] := by
  rfl

end Demo

/-- Case: the third call. -/
example : Answers Demo.prog Demo.cls false 0 [7] (some (.fn (.thr 9))) (.exc 9) :=
  C64_chains_are_read_from_left_to_right_partial (chain := Demo.chain1) (n := 2) rfl Demo.chain1_ok (Demo.prog_nonReentrant _) (Demo.stubbed_w1 _)
    (Demo.trace_w2 _) Demo.picks_w2 (fuel := 5) rfl

end FakeIt
