import Verif.Spec.Source
/-!
# Collecting invocations when hash sets iterate in any order
-/
namespace FakeIt.Spec
variable {V E : Type}

/-- `Collects P w s into out`: collecting source `s` into a set listed as `into` can give a set listed as `out`; the sets are unordered, so at every
stage any listing of the same set may be the one that is iterated. -/
inductive Collects (P : Prog V E) (w : World V E) : Source V → List (Invocation V) → List (Invocation V) → Prop where
  | relist {s into out out'} : Collects P w s into out → out.Perm out' → Collects P w s into out'
  | empty {into} : Collects P w .empty into into
  | mock {m k into} : w.mock? m = some k → Collects P w (.mock m) into (insertAllU into k.allInvs)
  | ctx {l k off b into} : w.mock? l.m = some k → l.slot.off (P.cls k.cls) = some off → k.body? off = some b →
      Collects P w (.ctx l) into (insertAllU into (b.invs.filter fun i => matcherMatches l.addr l.kind w.heap i))
  | unverified {s into out} : Collects P w s [] out → Collects P w (.unverified s) into (insertAllU into (out.filter fun i => !i.verified))
  | union {s t into out1 out2} : Collects P w s [] out1 → Collects P w t out1 out2 → Collects P w (.union s t) into (insertAllU into out2)

end FakeIt.Spec
