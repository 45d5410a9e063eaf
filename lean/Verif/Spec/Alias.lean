import Verif.Model.Alias

namespace Verif.AS.Spec
open Verif.AS

/-- What an alias means, one indirection at a time: an access at `a` inside an alias `r` of region `q` is an access at the
same distance from the point of `q` the alias points to.  `Forwards m r a z b`: the access at `a` in `r` ends at address `b`
of the region `z`, which is not an alias. -/
inductive Forwards (m : List Node) : Region → BitVec 32 → Region → BitVec 32 → Prop
  | here {r a} : r.aliased = none → Forwards m r a r a
  | next {r a q z b} : r.aliased = some q.oid → findOid m q.oid = some q →
      Forwards m q.reg (BitVec.ofNat 32 q.reg.start + BitVec.ofNat 32 r.aliasOff + (a - BitVec.ofNat 32 r.start)) z b →
      Forwards m r a z b

end Verif.AS.Spec
