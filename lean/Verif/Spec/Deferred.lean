/-
Specifications for deferred requests (C07, C08), the a20 gate (C10) and cached state (C56).
-/
import Verif.Model.RegionApi

namespace Verif.Region.Spec
open Verif.AS Verif.Region

/-- The same request, but taking effect immediately. -/
def immediate : Req → Req
  | .ram s z _ => .ram s z false
  | .rom s z b _ => .rom s z b false
  | .io s z sp h o _ u => .io s z sp h o false u
  | .alias a s z _ => .alias a s z false
  | .destroy s z sp _ => .destroy s z sp false
  | .a20 c _ => .a20 c false
  | r => r

/-- A request for a change made with should_int = true (or an interrupt service, or guest execution). -/
def Deferred : Req → Prop
  | .ram _ _ i => i = true
  | .rom _ _ _ i => i = true
  | .io _ _ _ _ _ i u => i = true ∧ u = 0
  | .alias _ _ _ i => i = true
  | .destroy _ _ _ i => i = true
  | .a20 _ i => i = true
  | _ => True

/-- Alias requests are issued only when no other change is waiting to be serviced. -/
def AliasAtRest (c : Cpu) : List Req → Prop
  | [] => True
  | r :: rs => (∀ a s z i, r = .alias a s z i → c.changed = []) ∧ ∀ c' st, c.step r = some (c', st) → AliasAtRest c' rs

/-- The handlers a region should have after the queued updates: the last one that names an address of the region. -/
def lastUpdate (io : Bool) (r : Region) (us : List Update) : Option Update :=
  us.reverse.find? (fun u => decide (u.ioSpace = io) && decide (r.start ≤ u.start) && decide (u.start ≤ r.stop))

def withUpdates (io : Bool) (ty : MemType) (us : List Update) (r : Region) : Region :=
  if r.type = ty then
    match lastUpdate io r us with
    | some u => { r with handlers := u.handlers, opaq := u.opaq }
    | none => r
  else r

/-- The mask a client asked for last (documentation of cpu_set_a20: closed = all bits, open = bit 20 forced to zero). -/
def requestedMask : List Req → BitVec 32
  | [] => 0xFFFFFFFF
  | rs => match rs.reverse.find? (fun | .a20 _ _ => true | _ => false) with
    | some (.a20 true _) => 0xFFFFFFFF
    | some (.a20 false _) => 0xFFEFFFFF
    | _ => 0xFFFFFFFF

/-- A memory map without the callbacks (the part of the map that caches depend on). -/
def layout (s : Space) : List (Nat × Oid × Region) :=
  s.nodes.map (fun n => (n.key, n.oid, { n.reg with handlers := {}, opaq := 0 }))

end Verif.Region.Spec
