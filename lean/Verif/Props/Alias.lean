/-
C05: alias regions forward to the original bytes.
-/
import Verif.Lemmas.RegionApi

namespace Verif.Region
open Verif.AS Verif.AS.Spec

/-- **C05 (resolvers agree)**: in every state reachable by any history of api calls, for every alias region of the map, every
address and every a20 mask, the resolution used when the TLB is filled (correct_phys_addr) and the one used by the block api
and by slow guest accesses (AS_RESOLVE_ALIAS) end at the same region and address (up to the a20 mask the former applies),
run the same number of iterations and hit the same undefined behaviour. -/
theorem C05_resolvers_agree (rs : List Req) (c : Cpu) (hreach : Cpu.init.run rs = some c) (n : Node) (hn : n ∈ c.mem.nodes)
    (halias : n.reg.type = .alias) (fuel : Nat) (a20 a : BitVec 32) :
    correctPhysAddr c.mem.nodes fuel a20 n.reg a = (resolveAlias c.mem.nodes fuel n.reg a).map (fun p => (p.1, p.2 &&& a20)) := by
  have I := inv_run inv_init hreach
  have final : ∀ f (x : Node), x ∈ c.mem.nodes → ∀ off z off', resolveLoop c.mem.nodes f x.reg off = .done (z, off') → z.aliasOff = 0 := by
    intro f
    induction f with
    | zero => intro x _ off z off' h; simp [resolveLoop] at h
    | succ f ih =>
      intro x hx off z off' h
      unfold resolveLoop at h
      split at h
      · next hnone =>
        simp only [LoopRes.done.injEq, Prod.mk.injEq] at h
        rw [← h.1]; exact (I.regs x hx).2 hnone
      · split at h
        · simp at h
        · next q hq => exact ih q (findOid_oid hq).2 _ _ _ h
  unfold correctPhysAddr resolveAlias
  rw [if_pos halias, correctLoop_eq_resolveLoop _ _ _ (BitVec.ofNat 32 n.reg.aliasOff)]
  have := final fuel n hn (BitVec.ofNat 32 n.reg.aliasOff)
  cases h : resolveLoop c.mem.nodes fuel n.reg (BitVec.ofNat 32 n.reg.aliasOff) with
  | done p =>
    have := this p.1 p.2 h
    simp only [LoopRes.map, LoopRes.done.injEq, Prod.mk.injEq, true_and, this]
    congr 1; grind
  | ub => rfl
  | running => rfl

/-- **C05 (chains of any depth)**: a resolution that ends, ends where the chain of aliases leads; and whenever the chain has
an end, the loop finds it. -/
theorem C05_chain_resolution (rs : List Req) (c : Cpu) (hreach : Cpu.init.run rs = some c) (n : Node) (hn : n ∈ c.mem.nodes)
    (a : BitVec 32) (z : Region) (b : BitVec 32) :
    Forwards c.mem.nodes n.reg a z b ↔ ∃ f0, ∀ f, f0 ≤ f → resolveAlias c.mem.nodes f n.reg a = .done (z, b) := by
  have I := inv_run inv_init hreach
  have zoff : ∀ {r : Region} {a' : BitVec 32} {z : Region} {b : BitVec 32}, (∃ x ∈ c.mem.nodes, x.reg = r) → Forwards c.mem.nodes r a' z b → z.aliasOff = 0 := by
    intro r a' z b hx h
    induction h with
    | here hnone => obtain ⟨x, hx, rfl⟩ := hx; exact (I.regs x hx).2 hnone
    | next _ hq _ ih => exact ih ⟨_, (findOid_oid hq).2, rfl⟩
  constructor
  · intro h
    obtain ⟨f0, h0⟩ := forwards_resolveLoop h
    refine ⟨f0, fun f hf => ?_⟩
    unfold resolveAlias
    rw [h0 f hf]
    simp only [LoopRes.map, LoopRes.done.injEq, Prod.mk.injEq, true_and, zoff ⟨n, hn, rfl⟩ h]
    grind
  · rintro ⟨f0, h0⟩
    have h := h0 f0 (Nat.le_refl _)
    unfold resolveAlias at h
    cases hl : resolveLoop c.mem.nodes f0 n.reg (BitVec.ofNat 32 n.reg.aliasOff) with
    | ub => simp [hl, LoopRes.map] at h
    | running => simp [hl, LoopRes.map] at h
    | done p =>
      simp only [hl, LoopRes.map, LoopRes.done.injEq, Prod.mk.injEq] at h
      obtain ⟨rfl, rfl⟩ := h
      have hf := resolveLoop_forwards hl a
      have hz : p.1.aliasOff = 0 := by
        exact zoff ⟨n, hn, rfl⟩ hf
      have e : a - BitVec.ofNat 32 n.reg.start + BitVec.ofNat 32 p.1.start + (p.2 - BitVec.ofNat 32 n.reg.aliasOff + BitVec.ofNat 32 n.reg.aliasOff - BitVec.ofNat 32 p.1.aliasOff)
          = BitVec.ofNat 32 p.1.start + p.2 + (a - BitVec.ofNat 32 n.reg.start) := by rw [hz]; grind
      rw [← e]; exact hf

theorem ofNat_add32 (a b : Nat) : BitVec.ofNat 32 (a + b) = BitVec.ofNat 32 a + BitVec.ofNat 32 b := BitVec.ofNat_add a b

/-- **C05 (partial), end to end**: after any history, creating an alias of `size` bytes of a mapped region (immediately, at a
place that does not overlap the original region) succeeds, and for every offset an access in the alias ends at the same region
and address as the access at the same offset of the original range, whatever chain of aliases the original is itself.
Missing: the property is not preserved by later splits, destructions and overlaps, see the violations below; and the
coincidence of C01 is excluded. -/
theorem C05_new_alias_reaches_original_partial (rs : List Req) (c : Cpu) (hreach : Cpu.init.run rs = some c)
    (T : Tiled c.mem) (hmax : c.mem.max = maxAddr) (aliasStart oriStart size : Nat) (hsize : 0 < size)
    (hend : aliasStart + size - 1 ≤ maxAddr) (q : Region) (hq : c.mem.search oriStart = some q) (hq0 : oriStart ≤ maxAddr)
    (hmapped : q.type ≠ .unmapped) (hin : oriStart + size - 1 ≤ q.stop)
    (hdisj : aliasStart + size - 1 < q.start ∨ q.stop < aliasStart)
    (hco : ¬ Coincidence c.mem (.erase aliasStart (aliasStart + size - 1))) :
    ∃ c', c.initAlias aliasStart oriStart size false = some (c', .success) ∧
      ∀ o, o < size → ∃ ra ro, c'.mem.search (aliasStart + o) = some ra ∧ c'.mem.search (oriStart + o) = some ro ∧
        ∀ z b, Forwards c'.mem.nodes ra (BitVec.ofNat 32 (aliasStart + o)) z b ↔
          Forwards c'.mem.nodes ro (BitVec.ofNat 32 (oriStart + o)) z b := by
  have I := inv_run inv_init hreach
  obtain ⟨U, hU, hl, -⟩ := I.oids
  obtain ⟨n, hn, hnq⟩ : ∃ n, getIt c.mem.nodes oriStart = some n ∧ n.reg = q := by
    unfold Space.search at hq
    rw [Option.map_eq_some_iff] at hq
    exact hq
  subst hnq
  have hmem := ((T.getIt_iff (by omega) n).1 hn)
  have hstop := T.leMax n hmem.1
  have hc := hmem.2
  unfold Contains at hc
  have e1 : endOf maxAddr aliasStart size = aliasStart + size - 1 := by
    rw [endOf_eq hsize (by unfold maxAddr at hend; omega)]; omega
  have e2 : sumLess1 oriStart size = oriStart + size - 1 := by
    rw [wrap_eq hsize (by unfold maxAddr at hmax; omega)]
  let r : Region := { start := aliasStart, stop := aliasStart + size - 1, type := .alias,
                      aliasOff := oriStart - n.reg.start, aliased := some n.oid }
  have hok : EndOk c.mem r.start r.stop := endOk_of_not_coincidence T (.erase aliasStart (aliasStart + size - 1)) hco
  obtain ⟨m, hm, T', hmax', -, hkeep, ⟨oid', hnew⟩⟩ := insert_spec T r (.req c.nextReq) (by simp only [r]; omega) (by simp only [r]; omega) hok
  have hoid := hU.insert (fun h => by have := hl _ h; omega) hm
  have hn' := hkeep n hmem.1 (by simp only [r]; omega)
  refine ⟨Cpu.clearCaches { c with mem := m, nextReq := c.nextReq + 1 }, ?_, ?_⟩
  · unfold Cpu.initAlias
    rw [if_neg (by omega), hn]
    simp only [Option.bind_eq_bind, Option.bind_some]
    rw [if_pos ⟨hc.1, by rw [e2]; exact hin, hmapped⟩, e1]
    show (Cpu.submit _ (.insert r (.req c.nextReq)) false).bind _ = _
    simp only [Cpu.submit, Space.step, Bool.false_eq_true, if_false, hm, Option.bind_eq_bind, Option.bind_some]
    rfl
  · intro o ho
    refine ⟨r, n.reg, T'.search_of_mem hnew ⟨by simp only [r]; omega, by simp only [r]; omega⟩,
      T'.search_of_mem hn' ⟨by omega, by omega⟩, ?_⟩
    intro z b
    have hf : findOid m.nodes n.oid = some n := hoid.find hn'
    have ea : BitVec.ofNat 32 n.reg.start + BitVec.ofNat 32 r.aliasOff + (BitVec.ofNat 32 (aliasStart + o) - BitVec.ofNat 32 r.start)
        = BitVec.ofNat 32 (oriStart + o) := by
      simp only [r]
      rw [ofNat_add32 aliasStart o, ofNat_add32 oriStart o]
      have : BitVec.ofNat 32 oriStart = BitVec.ofNat 32 n.reg.start + BitVec.ofNat 32 (oriStart - n.reg.start) := by
        rw [← ofNat_add32, Nat.add_sub_cancel' hc.1]
      rw [this]; grind
    constructor
    · intro h
      cases h with
      | here h' => simp [r] at h'
      | next h1 h2 h3 =>
        simp only [r, Option.some.injEq] at h1
        rw [← h1, Cpu.clearCaches] at h2
        simp only [hf, Option.some.injEq] at h2
        subst h2
        rw [← ea]; exact h3
    · intro h
      refine Forwards.next (q := n) rfl hf ?_
      rw [ea]; exact h

/-- The map used by the examples: ram at [0x10000, 0x13FFF] and an alias of it at [0x20000, 0x23FFF]. -/
def aliasSetup : List Req := [.ram 0x10000 0x4000 false, .alias 0x20000 0x10000 0x4000 false]

/-- The chain alias of alias of ram, resolved through two indirections. -/
example : ∃ c n, Cpu.init.run (aliasSetup ++ [.alias 0x40000 0x21000 0x1000 false]) = some c ∧
    getIt c.mem.nodes 0x40010 = some n ∧ n.reg.type = .alias ∧
    resolveAlias c.mem.nodes 5 n.reg 0x40010 = .done ({ start := 0x10000, stop := 0x13FFF, type := .ram, buffOff := 0x10000 }, 0x11010) := by
  refine ⟨_, _, rfl, rfl, ?_, ?_⟩ <;> decide

/-- The hypotheses of `C05_new_alias_reaches_original_partial` hold for an alias of an alias. -/
example : ∃ c, Cpu.init.run aliasSetup = some c ∧ ∃ c', c.initAlias 0x40000 0x21000 0x1000 false = some (c', .success) ∧
      ∀ o, o < 0x1000 → ∃ ra ro, c'.mem.search (0x40000 + o) = some ra ∧ c'.mem.search (0x21000 + o) = some ro ∧
        ∀ z b, Forwards c'.mem.nodes ra (BitVec.ofNat 32 (0x40000 + o)) z b ↔
          Forwards c'.mem.nodes ro (BitVec.ofNat 32 (0x21000 + o)) z b := by
  refine ⟨_, rfl, C05_new_alias_reaches_original_partial aliasSetup _ rfl ⟨by decide, by decide, by decide, by decide, by decide, by decide, by decide⟩
    rfl 0x40000 0x21000 0x1000 (by decide) (by decide) _ rfl (by decide) (by decide) (by decide) (by decide) ?_⟩
  rintro ⟨r, h1, h2, -⟩
  cases h1
  exact absurd h2 (by decide)

/-- **C05 is violated by the code** when an alias is split: after a hole at [0x21000, 0x21FFF] is created in the alias, offset
0x2000 of the alias resolves to 0x10000 instead of 0x12000 (as.hpp 161-168 does not adjust alias_offset). -/
theorem C05_split_alias_violation :
    ∃ c n, Cpu.init.run (aliasSetup ++ [.io 0x21000 0x1000 false {} 0 false 0]) = some c ∧ getIt c.mem.nodes 0x22000 = some n ∧
      n.reg.type = .alias ∧ resolveAlias c.mem.nodes 5 n.reg 0x22000 =
        .done ({ start := 0x10000, stop := 0x13FFF, type := .ram, buffOff := 0x10000 }, 0x10000) ∧
      (0x10000 : BitVec 32) ≠ 0x12000 := by
  refine ⟨_, _, rfl, rfl, ?_, ?_, ?_⟩ <;> decide

/-- **C05 is violated by the code** when the original is destroyed: the alias keeps a pointer to a freed region object. -/
theorem C05_dangling_alias_violation :
    ∃ c n, Cpu.init.run (aliasSetup ++ [.destroy 0x10000 0x4000 false false]) = some c ∧ getIt c.mem.nodes 0x20000 = some n ∧
      n.reg.type = .alias ∧ ∀ fuel, resolveAlias c.mem.nodes (fuel + 1) n.reg 0x20000 = .ub := by
  refine ⟨_, _, rfl, rfl, by decide, ?_⟩
  intro fuel
  rfl

/-- **C05 is violated by the code** when an alias replaces exactly the region it (indirectly) points to: the contents are
swapped into the original object, the chain becomes a cycle and the resolution never ends. -/
theorem C05_alias_cycle_violation :
    ∃ c n, Cpu.init.run (aliasSetup ++ [.alias 0x10000 0x20000 0x4000 false]) = some c ∧ getIt c.mem.nodes 0x10000 = some n ∧
      ∀ fuel, resolveAlias c.mem.nodes fuel n.reg 0x10000 = .running := by
  obtain ⟨c, hc, n1, n2, h1, h2, f1, f2, a1, a2⟩ : ∃ c, Cpu.init.run (aliasSetup ++ [.alias 0x10000 0x20000 0x4000 false]) = some c ∧
      ∃ n1 n2, getIt c.mem.nodes 0x10000 = some n1 ∧ getIt c.mem.nodes 0x20000 = some n2 ∧
        findOid c.mem.nodes n1.oid = some n1 ∧ findOid c.mem.nodes n2.oid = some n2 ∧
        n1.reg.aliased = some n2.oid ∧ n2.reg.aliased = some n1.oid := by
    refine ⟨_, rfl, _, _, rfl, rfl, ?_, ?_, ?_, ?_⟩ <;> decide
  refine ⟨c, n1, hc, h1, ?_⟩
  have key : ∀ fuel off, resolveLoop c.mem.nodes fuel n1.reg off = .running ∧ resolveLoop c.mem.nodes fuel n2.reg off = .running := by
    intro fuel
    induction fuel with
    | zero => intro off; exact ⟨rfl, rfl⟩
    | succ f ih =>
      intro off
      simp only [resolveLoop, a1, a2, f1, f2]
      exact ⟨(ih _).2, (ih _).1⟩
  intro fuel
  unfold resolveAlias
  rw [(key fuel _).1]
  rfl

end Verif.Region
