import Verif.Lemmas.RefineCall
/-!
# Virtual calls refine the abstract mock's calls: choosing the stubbing, recording, whole calls
-/
namespace FakeIt
variable {V E : Type} {P : Prog V E} {nm : MockId → Nat → Nat}
open Spec

theorem scan_find (heap : Addr → V) (inv : Invocation V) (hn : inv.matcher = none) (l : List (Handler V E)) :
    scanHandlers heap inv l = l.find? fun h => accepts h.matcher.kind (valuesOf heap inv.args) := by
  induction l with
  | nil => rfl
  | cons x l ih =>
    simp only [scanHandlers, List.find?_cons]
    have : x.accepts heap inv = accepts x.matcher.kind (valuesOf heap inv.args) := by
      rw [Bool.eq_iff_iff, accepts_iff x heap inv hn, acceptsB_iff]
    rw [this]
    cases accepts x.matcher.kind (valuesOf heap inv.args) with
    | true => rfl
    | false => exact ih

theorem All2.reverse {α β : Type} {R : α → β → Prop} {l : List α} {l' : List β} (h : All2 R l l') : All2 R l.reverse l'.reverse := by
  induction h with
  | nil => exact .nil
  | cons h1 _ ih => rw [List.reverse_cons, List.reverse_cons]; exact ih.append (.cons h1 .nil)

theorem callsOf_append (calls : List (Rec V)) (r : Rec V) (m off : Nat) :
    callsOf (calls ++ [r]) m off = if r.meth = some (m, off) then callsOf calls m off ++ [r] else callsOf calls m off := by
  unfold callsOf
  rw [List.filter_append]
  by_cases h : r.meth = some (m, off)
  · rw [if_pos h]; simp [h]
  · rw [if_neg h]; simp [h]

/-- The call is recorded, the stubbing's script has advanced. -/
theorem rel_serve {s : AState V E} {w : World V E} (hR : Rel P s w) {m off : Nat} {b : MBody V E} (hb : w.body? m off = some b)
    {h : Handler V E} (hmem : h ∈ b.handlers) (hnd : (b.handlers.map (·.addr)).Nodup) {st : Stub V E} (hst : StubRel h st)
    {q : ActionSeq V E} (hq : ∀ acts, h.seq.Rep acts → q.Rep (nextActs acts)) {args as : List (Arg V)} {heap : Addr → V} {n : Nat} (hn : s.made + 1 ≤ n)
    {log : List (Event V)} {alog : List (Report V)} (hlog : All2 (EvRel s.named) log alog) :
    Rel P { s with
        calls := s.calls ++ [⟨some (m, off), s.made + 1, as, some st.name, false⟩]
        mocks := s.mocks.modify m fun k => k.onStubs off fun l => l.map fun x => if x.name = st.name then { x with script := rest x.script } else x
        heap := heap, made := n, log := alog }
      (srv w m off h.addr q { recorded w b args h with args := as } heap n log) := by
  have hbody : ∀ m' off', (srv w m off h.addr q { recorded w b args h with args := as } heap n log).body? m' off' =
      if m = m' ∧ off = off' then (w.body? m' off').map (srvB h.addr q { recorded w b args h with args := as }) else w.body? m' off' :=
    fun m' off' => World.body?_updBody _ _ _ _ _ _
  refine ⟨?_, fun m' off' => ?_, ?_, ?_, ?_, rfl, rfl, hR.named, hR.alloc, ?_, hlog⟩
  · refine hR.mocks.modify m ?_
    intro k a hk ha
    have R := hR.mocks.mock m k a hk ha
    have hkb : k.body? off = some b := by simpa [World.body?, hk] using hb
    refine ⟨R.cls, R.owner, R.alive, R.data, fun o => ?_, fun hr o ho => ?_, fun hr d hd => onStubs_none (R.reset hr d hd), fun d hd => ?_⟩
    · rw [body?_updBody_mock]
      simp only [AMock.onStubs]
      by_cases ho : o = off
      · subst ho
        have hB := R.body o
        rw [hkb] at hB
        simp only [if_true, hkb, Option.map_some]
        cases hso : a.stubs o with
        | none => rw [hso] at hB; exact hB.elim
        | some l =>
          rw [hso] at hB
          show All2 StubRel _ _
          simp only [srvB, setSeq]
          rw [← List.map_reverse]
          have hB' : All2 StubRel b.handlers.reverse l := hB
          refine All2.map (R := fun x y => StubRel x y ∧ x ∈ b.handlers.reverse ∧ y ∈ l) ?_ hB'.withMem
          rintro x y ⟨hxy, hx, -⟩
          by_cases hxa : x.addr = h.addr
          · have he : x = h := eq_of_map_nodup hnd (by simpa using hx) hmem hxa
            subst he
            have : y.name = st.name := by rw [hxy.name, hst.name]
            simp only [beq_self_eq_true, if_true, this]
            exact ⟨hxy.addr, hst.name, hxy.kind, by rw [rest_eq hxy.writable]; exact hq _ hxy.rep, by rw [rest_eq hxy.writable]; exact writable_next hxy.writable⟩
          · have : y.name ≠ st.name := by
              rw [hxy.name, hst.name]
              intro e
              exact hxa (by rw [hxy.addr, hst.addr, e])
            simp only [beq_iff_eq, hxa, if_false, this]
            exact hxy
      · simp only [ho, Ne.symm ho, if_false]; exact R.body o
    · simp only [Mock.updBody, List.getElem?_modify] at ho
      refine R.fresh hr o ?_
      by_cases hof : off = o
      · subst hof
        simp only [if_true] at ho
        obtain ⟨x, hx, hxe⟩ := Option.map_eq_some_iff.1 ho
        cases x with
        | none => exact hx
        | some x => cases hxe
      · simpa [hof] using ho
    · have := R.del d hd
      exact ⟨onStubs_none this.1, by simp only [onStubs_isSome]; exact this.2⟩
  · rw [callsOf_append]
    have hh := hR.hist m' off'
    by_cases hc : m = m' ∧ off = off'
    · obtain ⟨rfl, rfl⟩ := hc
      rw [if_pos rfl]
      have e : history (srv w m off h.addr q { recorded w b args h with args := as } heap n log) m off =
          history w m off ++ [{ recorded w b args h with args := as }] := by
        simp only [history, hbody, hb]
        simp [srvB]
      rw [e]
      refine hh.append (.cons ?_ .nil)
      exact ⟨by simp [recorded, hR.made], rfl, by simp [recorded, hst.name], rfl, hR.meths m off b hb⟩
    · rw [if_neg (by simp only [Option.some.injEq, Prod.mk.injEq]; exact hc)]
      have e : history (srv w m off h.addr q { recorded w b args h with args := as } heap n log) m' off' = history w m' off' := by
        simp only [history, hbody, if_neg hc]
      rw [e]; exact hh
  · intro r hr
    rcases List.mem_append.1 hr with hr | hr
    · exact hR.known r hr
    · rw [List.mem_singleton.1 hr]; exact ⟨m, off, rfl⟩
  · refine List.pairwise_append.2 ⟨hR.sorted, List.pairwise_singleton _ _, ?_⟩
    intro r hr r' hr'
    rw [List.mem_singleton.1 hr']
    exact Nat.lt_succ_of_le (hR.bound r hr)
  · intro r hr
    rcases List.mem_append.1 hr with hr | hr
    · exact Nat.le_trans (hR.bound r hr) (Nat.le_trans (Nat.le_succ _) hn)
    · rw [List.mem_singleton.1 hr]; exact hn
  · intro m' off' b' hb'
    rw [hbody] at hb'
    split at hb'
    · obtain ⟨b0, hb0, rfl⟩ := Option.map_eq_some_iff.1 hb'
      exact hR.meths m' off' b0 hb0
    · exact hR.meths m' off' b' hb'

/-- Only the test's variables, the call counter and the log change. -/
theorem Rel.counters {s : AState V E} {w : World V E} (h : Rel P s w) {heap : Addr → V} {n : Nat} (hn : s.made ≤ n) {log : List (Event V)} {alog : List (Report V)}
    (hlog : All2 (EvRel s.named) log alog) : Rel P { s with heap := heap, made := n, log := alog } { w with heap := heap, invTotal := n, log := log } :=
  ⟨h.mocks, h.hist, h.known, h.sorted, fun r hr => Nat.le_trans (h.bound r hr) hn, rfl, rfl, h.named, h.alloc, h.meths, hlog⟩

/-- A call that reaches the record of a mentioned method. -/
theorem handle_refines {s : AState V E} {w : World V E} (hw : Wf P nm w) (hR : Rel P s w) {m off : Nat} {b : MBody V E} (hb : w.body? m off = some b)
    {k : Mock V E} (hk : w.mocks[m]? = some k) {a : AMock V E} (ha : s.mocks[m]? = some a) (hal : k.alive = true) (hoff : off < (P.cls k.cls).size)
    (hnd : ∀ d, (P.cls k.cls).dtor = some d → off ≠ d + 1) {stubs : List (Stub V E)} (hst : a.stubs off = some stubs) {args : List (Arg V)}
    {o : Outcome V E} {s' : AState V E} (hs : Spec.serve P s m a off stubs args = some (o, s')) (fuel : Nat) :
    ∃ w', handleCall P (callSlot P (fuel + 1)) w m off b args = .done (o, w') ∧ Rel P s' w' := by
  have MR := hR.mocks.mock m k a hk ha
  have hkb : k.body? off = some b := by simpa [World.body?, hk] using hb
  have hB := MR.body off
  rw [hkb, hst] at hB
  have hB' : All2 StubRel b.handlers.reverse stubs := hB
  have hfind : All2.Opt StubRel (findHandler w.heap b.handlers (fresh w b args)) (stubs.find? fun st => accepts st.kind (valuesOf s.heap args)) := by
    unfold findHandler
    rw [scan_find _ _ rfl]
    refine All2.find? ?_ hB'
    intro x y hxy
    rw [hxy.kind, ← hR.heap]; rfl
  rw [handleCall_eq]
  unfold Spec.serve at hs
  dsimp only at hs
  cases hf : findHandler w.heap b.handlers (fresh w b args) with
  | none =>
    rw [hf] at hfind
    cases hf' : stubs.find? fun st => accepts st.kind (valuesOf s.heap args) with
    | some st => rw [hf'] at hfind; exact hfind.elim
    | none =>
      rw [hf'] at hs
      simp only [Option.some.injEq, Prod.mk.injEq] at hs
      obtain ⟨rfl, rfl⟩ := hs
      refine ⟨_, rfl, ?_⟩
      have e : Rel P _ _ := hR.counters (heap := s.heap) (n := s.made + 1) (Nat.le_succ _)
        (hR.log.append (.cons (EvRel.unexpected (ty := .unmatched) (i := fresh w b args) (r := ⟨some (m, off), s.made + 1, args, none, false⟩)
          ⟨by simp [fresh, hR.made], rfl, rfl, rfl, hR.meths m off b hb⟩) .nil))
      have e2 : (w.bumpInv.fire (.unexpectedCall .unmatched (fresh w b args))) = { w with heap := s.heap, invTotal := s.made + 1, log := w.log ++ [.unexpectedCall .unmatched (fresh w b args)] } := by
        rw [← hR.heap, ← hR.made]; rfl
      show Rel P _ (w.bumpInv.fire (.unexpectedCall .unmatched (fresh w b args)))
      rw [e2]; exact e
  | some h =>
    rw [hf] at hfind
    cases hf' : stubs.find? fun st => accepts st.kind (valuesOf s.heap args) with
    | none => rw [hf'] at hfind; exact hfind.elim
    | some st =>
      rw [hf'] at hfind
      have hsr : StubRel h st := hfind
      rw [hf'] at hs
      simp only [Option.bind_eq_bind, Option.bind_eq_some_iff] at hs
      obtain ⟨⟨o1, as, s2⟩, hp, hs⟩ := hs
      have hmem : h ∈ b.handlers := ((findHandler_some _ _ rfl _ _).1 hf).mem
      have hnodup := hw.inv2.nodup hb
      obtain ⟨i, rst, -, -, hfront⟩ := rep_front hsr.rep
      obtain ⟨q, hfin, -⟩ := rep_advance hsr.rep hfront
      have hq : ∀ acts, h.seq.Rep acts → q.Rep (nextActs acts) := by
        intro acts hr
        obtain ⟨q', hfin', hrep'⟩ := rep_advance hr hfront
        rw [hfin] at hfin'; cases hfin'; exact hrep'
      have huid : ∀ j ∈ b.invs, j.uid ≠ (recorded w b args h).uid := by
        intro j hj e
        have := (hw.recs.ok m off b hb j hj).2.1
        rw [e] at this
        exact Nat.not_succ_le_self _ this
      have t := hw.steady.1.1 m k hk
      have hp' : perform P (P.cls k.cls) (!k.owner) off (recorded w b args h).args { s with made := s.made + 1 } st.script = some (o1, as, s2) := by
        rw [MR.cls, MR.owner, Bool.not_not]; exact hp
      obtain ⟨log', hinv, hlog', hs2, hle⟩ := invoke_refines (s1 := { s with made := s.made + 1 }) hb hk t hal hoff hnd (a := h.addr) (q := h.seq.tick i) huid (log := w.log) hR.log hp' fuel
      obtain ⟨hp2, md2, lg2, rfl⟩ : ∃ hp2 md2 lg2, s2 = { s with heap := hp2, made := md2, log := lg2 } := ⟨_, _, _, hs2⟩
      clear hs2
      dsimp only at hinv hlog' hle hs
      have hrun : runHandler P (callSlot P (fuel + 1)) (w.bumpInv.pushInv m off (recorded w b args h)) ⟨m, off, w.invTotal + 1⟩ h args =
          .done (o1, srv w m off h.addr q { recorded w b args h with args := as } hp2 md2 log') := by
        simp only [runHandler, hfront, R.bind_done, srv_push hb hmem hnodup]
        have e1 : srv w m off h.addr (h.seq.tick i) (recorded w b args h) w.heap (w.invTotal + 1) w.log =
            srv w m off h.addr (h.seq.tick i) (recorded w b args h) s.heap (s.made + 1) w.log := by rw [hR.heap, hR.made]
        rw [e1]
        have hinv' : invokeAct P (callSlot P (fuel + 1)) (srv w m off h.addr (h.seq.tick i) (recorded w b args h) s.heap (s.made + 1) w.log) ⟨m, off, w.invTotal + 1⟩ args (headAct st.script) =
          .done (o1, srv w m off h.addr (h.seq.tick i) { recorded w b args h with args := as } hp2 md2 log') := hinv
        rw [hinv']
        simp only [R.bind_done, worldFinally, srv_handler hb hmem hnodup rfl, hfin, srv_updSeq hb]
      simp only [hrun, R.bind_done]
      have hrel := rel_serve hR hb hmem hnodup hsr hq (args := args) (as := as) (heap := hp2) (n := md2) hle hlog'
      cases o1 with
      | noMore =>
        simp only [Option.some.injEq, Prod.mk.injEq] at hs
        obtain ⟨rfl, rfl⟩ := hs
        refine ⟨_, rfl, ?_⟩
        exact hrel.counters (heap := hp2) (n := md2) (Nat.le_refl _)
          (hlog'.append (.cons (EvRel.unexpected (ty := .unmatched) (i := recorded w b args h) (r := ⟨some (m, off), s.made + 1, args, some st.name, false⟩)
            ⟨by simp [recorded, hR.made], rfl, by simp [recorded, hsr.name], rfl, hR.meths m off b hb⟩) .nil))
      | ret v => cases hs; exact ⟨_, rfl, hrel⟩
      | exc e => cases hs; exact ⟨_, rfl, hrel⟩
      | unexpected => cases hs; exact ⟨_, rfl, hrel⟩


/-! ## Whole calls -/

theorem fakeVt_dtor {c : ClassDecl V} {d : Nat} (hd : c.dtor = some d) (h : d < c.size) : (fakeVt c)[d]? = some .unmockedDtor := by
  unfold fakeVt
  rw [hd]
  dsimp only
  rw [List.getElem?_set, if_neg (by omega), List.getElem?_set]
  simp [h]

theorem fakeVt_del {c : ClassDecl V} {d : Nat} (hd : c.dtor = some d) (h : d + 1 < c.size) : (fakeVt c)[d + 1]? = some .dtorThunk := by
  unfold fakeVt
  rw [hd]
  dsimp only
  rw [List.getElem?_set]
  simp [h]

theorem stubs_live {s : AState V E} {w : World V E} (hw : Wf P nm w) (hR : Rel P s w) {m : MockId} {k : Mock V E} {a : AMock V E} (hk : w.mocks[m]? = some k)
    (ha : s.mocks[m]? = some a) {off : Nat} {stubs : List (Stub V E)} (hst : a.stubs off = some stubs) :
    k.alive = true ∧ off < (P.cls k.cls).size ∧ (∀ d, (P.cls k.cls).dtor = some d → off ≠ d + 1) ∧ ∃ b, w.body? m off = some b ∧ Live w m off b := by
  have MR := hR.mocks.mock m k a hk ha
  have hB := MR.body off
  rw [hst] at hB
  have t := hw.steady.1.1 m k hk
  cases hkb : k.body? off with
  | none => rw [hkb] at hB; exact hB.elim
  | some b =>
    have hb : w.body? m off = some b := by simp [World.body?, hk, hkb]
    have hal : k.alive = true := by
      cases hx : k.alive with
      | true => rfl
      | false => rw [Mock.body?, (t.dead hx).2] at hkb; simp at hkb
    have hget : k.mocks[off]? = some (some b) := by
      unfold Mock.body? at hkb
      cases hx : k.mocks[off]? with
      | none => rw [hx] at hkb; cases hkb
      | some x => rw [hx] at hkb; simp at hkb; rw [hkb]
    have hlt : off < (P.cls k.cls).size := by
      rw [← t.orig_length, ← (t.mlen hal).1]; exact (List.getElem?_eq_some_iff.1 hget).1
    have hdel : ∀ d, (P.cls k.cls).dtor = some d → off ≠ d + 1 := by
      rintro d hd rfl
      rw [MR.cls] at hd
      rw [(MR.del d hd).1] at hst; cases hst
    refine ⟨hal, hlt, hdel, b, hb, ?_⟩
    by_cases hd : (P.cls k.cls).dtor = some off
    · refine dtor_live hw.steady hb hk hd ?_
      intro o ho h0
      have hfr : a.wasReset = false := by
        cases hx : a.wasReset with
        | false => rfl
        | true =>
          have := MR.reset hx off (by rw [← MR.cls]; exact hd)
          rw [this] at hst; cases hst
      have hlo : o < k.mocks.length := Nat.lt_trans ho (List.getElem?_eq_some_iff.1 hget).1
      cases hx : k.mocks[o] with
      | none =>
        have := MR.fresh hfr o (by rw [List.getElem?_eq_getElem hlo, hx])
        rw [h0] at this; simp [intMax] at this
      | some b' =>
        obtain ⟨id, hid, hc⟩ := t.bound o b' (by rw [List.getElem?_eq_getElem hlo, hx])
        rw [h0] at hid; cases hid
        rcases hc with ⟨-, hdo⟩ | ⟨ctr, hctr, -⟩
        · rw [hd] at hdo; cases hdo; exact Nat.lt_irrefl _ ho
        · cases hctr
    · exact hw.steady.live hb hk fun d hd' => ⟨fun e => hd (by rw [e]; exact hd'), hdel d hd'⟩

/-- A call through a table entry that is not the deleting destructor of a fake (or mocked) object. -/
theorem slot_refines {s s' : AState V E} {w : World V E} (hw : Wf P nm w) (hR : Rel P s w) {m : MockId} {k : Mock V E} {a : AMock V E} (hk : w.mocks[m]? = some k)
    (ha : s.mocks[m]? = some a) (hal : a.alive = true ∨ a.spied = true) {off : Nat} (hoff : off < (P.cls a.cls).size) {args : List (Arg V)} {o : Outcome V E}
    (hdel : ∀ d, (P.cls a.cls).dtor = some d → off = d + 1 → a.spied = true ∧ a.stubs d = none)
    (hs : (match a.stubs off with
      | some stubs => Spec.serve P s m a off stubs args
      | none =>
        if a.spied then (plain (P.fn ((P.cls a.cls).impl off) (valuesOf s.heap args)) args s.heap).map fun r => (r.1, { s with heap := r.2.2 })
        else if (P.cls a.cls).dtor = some off then some (.ret P.void, s)
        else some (unstubbed s)) = some (o, s')) (fuel : Nat) :
    ∃ w', callSlot P (fuel + 2) w m off args = .done (o, w') ∧ Rel P s' w' := by
  have MR := hR.mocks.mock m k a hk ha
  have t := hw.steady.1.1 m k hk
  cases hst : a.stubs off with
  | some stubs =>
    rw [hst] at hs
    obtain ⟨hkal, hlt, hnd, b, hb, hlive⟩ := stubs_live hw hR hk ha hst
    rw [callSlot_live hlive]
    exact handle_refines hw hR hb hk ha hkal hlt hnd hst hs fuel
  | none =>
    rw [hst] at hs
    dsimp only at hs
    have hlo : off < k.orig.length := by rw [t.orig_length, MR.cls]; exact hoff
    have hlv : off < k.vt.length := by rw [t.vtlen]; exact hlo
    obtain ⟨x, hx⟩ : ∃ x, k.vt[off]? = some x := ⟨_, List.getElem?_eq_getElem hlv⟩
    have hxo : k.orig[off]? = some x := by
      rcases t.entry off x hx with ⟨id, rfl⟩ | rfl | h
      · obtain ⟨⟨b, hb⟩, -⟩ := t.proxy off id hx
        have hB := MR.body off
        rw [body?_of_get hb, hst] at hB
        exact hB.elim
      · obtain ⟨d, hd, rfl⟩ := t.thunk off hx
        rw [MR.cls] at hd
        have hc := hdel d hd rfl
        have := (MR.del d hd).2
        rw [hc.2] at this
        simp only [Option.isSome_none, Bool.false_eq_true, if_false] at this
        rw [← this]; exact hx
      · exact h
    have hcall : k.alive = true ∨ k.owner = false := by
      rcases hal with h | h
      · exact .inl (by rw [MR.alive]; exact h)
      · exact .inr (by rw [MR.owner, h]; rfl)
    cases hsp : a.spied with
    | true =>
      rw [hsp] at hs
      simp only [if_true, Option.map_eq_some_iff] at hs
      obtain ⟨⟨o1, as1, heap1⟩, hpl, he⟩ := hs
      simp only [Prod.mk.injEq] at he
      obtain ⟨rfl, rfl⟩ := he
      have hown : k.owner = false := by rw [MR.owner, hsp]; rfl
      have hnat : x = .native ((P.cls a.cls).impl off) := by
        rw [t.orig_eq, if_neg (by simp [hown])] at hxo
        rw [← MR.cls]
        exact (getElem?_nativeVt _ _ _ hxo).1
      subst hnat
      refine ⟨_, orig_plain hk hcall hx (by rw [hR.heap]; exact hpl) (fuel + 1), ?_⟩
      have := hR.counters (heap := heap1) (n := s.made) (Nat.le_refl _) hR.log
      rw [← hR.made] at this
      rw [show ({ s with heap := heap1, made := w.invTotal, log := s.log } : AState V E) = { s with heap := heap1 } by rw [hR.made]] at this
      exact this
    | false =>
      rw [hsp] at hs
      simp only [Bool.false_eq_true, if_false] at hs
      have hown : k.owner = true := by rw [MR.owner, hsp]; rfl
      have hkal : k.alive = true := by
        rcases hcall with h | h
        · exact h
        · rw [hown] at h; cases h
      have hnd : ∀ d, (P.cls k.cls).dtor = some d → off ≠ d + 1 := by
        intro d hd e
        rw [MR.cls] at hd
        have := (hdel d hd e).1
        rw [hsp] at this; cases this
      by_cases hd : (P.cls a.cls).dtor = some off
      · rw [if_pos hd] at hs
        cases hs
        have : x = .unmockedDtor := by
          rw [t.orig_eq, if_pos hown, MR.cls, fakeVt_dtor hd hoff] at hxo
          cases hxo; rfl
        subst this
        refine ⟨w, ?_, hR⟩
        simp only [callSlot, hk, hkal, hx, runCode, Bool.not_true, Bool.false_and, Bool.false_eq_true, if_false]
      · rw [if_neg hd] at hs
        cases hs
        have := (orig_code t hxo hnd (by rw [MR.cls]; exact hd)).1 hown
        subst this
        refine ⟨_, orig_unmocked hk hkal hx args (fuel + 1), ?_⟩
        have e : Rel P _ _ := hR.counters (heap := s.heap) (n := s.made + 1) (Nat.le_succ _)
          (hR.log.append (.cons (EvRel.unexpected (ty := .unmocked) (i := { uid := w.invTotal + 1, ordinal := (w.invTotal + 1) % wrap32, method := 0, args := [], verified := false, matcher := none })
            (r := ⟨none, s.made + 1, [], none, false⟩) ⟨by rw [hR.made], rfl, rfl, rfl, rfl⟩) .nil))
        have e2 : (unmockedCall w).2 = { w with heap := s.heap, invTotal := s.made + 1, log := w.log ++ [.unexpectedCall .unmocked { uid := w.invTotal + 1, ordinal := (w.invTotal + 1) % wrap32, method := 0, args := [], verified := false, matcher := none }] } := by
          rw [← hR.heap, ← hR.made]; rfl
        show Rel P _ (unmockedCall w).2
        rw [e2]; exact e

theorem call_refines {s s' : AState V E} {w : World V E} (hw : Wf P nm w) (hR : Rel P s w) {m : MockId} {off : Nat} {args : List (Arg V)} {o : Outcome V E}
    (hs : aCall P s m off args = some (o, s')) (fuel : Nat) : ∃ w', callSlot P (fuel + 3) w m off args = .done (o, w') ∧ Rel P s' w' := by
  unfold aCall at hs
  cases ha : s.mocks[m]? with
  | none => rw [ha] at hs; cases hs
  | some a =>
    rw [ha] at hs
    dsimp only at hs
    obtain ⟨k, hk, MR⟩ := hR.mocks.get ha
    have t := hw.steady.1.1 m k hk
    split at hs
    · rename_i hc
      obtain ⟨hal, hoff⟩ := hc
      unfold arrives at hs
      cases hd : (P.cls a.cls).dtor with
      | none =>
        rw [hd] at hs
        dsimp only at hs
        exact slot_refines hw hR hk ha hal hoff (fun d hd' => by rw [hd] at hd'; cases hd') (by rw [hd]; exact hs) (fuel + 1)
      | some d =>
        rw [hd] at hs
        dsimp only at hs
        by_cases hdc : off = d + 1 ∧ (a.spied = false ∨ (a.stubs d).isSome = true)
        · simp only [if_pos hdc] at hs
          obtain ⟨rfl, hor⟩ := hdc
          have hthunk : k.vt[d + 1]? = some .dtorThunk := by
            rw [(MR.del d hd).2]
            cases hso : (a.stubs d).isSome with
            | true => rfl
            | false =>
              simp only [Bool.false_eq_true, if_false]
              have hsp : a.spied = false := by
                rcases hor with h | h
                · exact h
                · rw [hso] at h; cases h
              have hown : k.owner = true := by rw [MR.owner, hsp]; rfl
              rw [t.orig_eq, if_pos hown, MR.cls]
              exact fakeVt_del hd hoff
          have hcall : (!k.alive && k.owner) = false := by
            rcases hal with h | h
            · rw [MR.alive, h]; rfl
            · rw [MR.owner, h]; simp
          have he : callSlot P (fuel + 3) w m (d + 1) args = callSlot P (fuel + 2) w m d [] := by
            rw [callSlot]
            simp only [hk, hcall, hthunk, runCode, MR.cls, hd, Bool.false_eq_true, if_false]
          rw [he]
          refine slot_refines hw hR hk ha hal (by omega) (fun d' hd' e => by rw [hd] at hd'; cases hd'; omega) ?_ fuel
          cases hso : a.stubs d with
          | some l => rw [hso] at hs; exact hs
          | none =>
            rw [hso] at hs
            dsimp only at hs ⊢
            cases hsp : a.spied with
            | true => simp only [hsp, if_true] at hs ⊢; exact hs
            | false => simp only [hsp, hd, Bool.false_eq_true, if_false, if_true] at hs ⊢; exact hs
        · simp only [if_neg hdc] at hs
          refine slot_refines hw hR hk ha hal hoff (fun d' hd' e => ?_) (by rw [hd]; exact hs) (fuel + 1)
          rw [hd] at hd'; cases hd'
          have : ¬(a.spied = false ∨ (a.stubs d).isSome = true) := fun h => hdc ⟨e, h⟩
          simp only [not_or, Bool.not_eq_false, Bool.not_eq_true, Option.isSome_eq_false_iff, Option.isNone_iff_eq_none] at this
          exact this
    · cases hs

end FakeIt
