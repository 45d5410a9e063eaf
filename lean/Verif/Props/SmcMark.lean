/-
C75: the pages instructions were fetched from stay watched.
-/
import Verif.Spec.Tlb
import Verif.Props.Tlb

namespace Verif.Paging
open Verif.AS (Region MemType)
open Verif.Paging.Spec

/-- Number of a page. -/
def Spec.pageNo (a : Addr) : Nat := a.toNat / 4096

/-- The region is a rom (the library treats everything that is not ram, a device or unmapped as rom) that covers the page of `p`. -/
def Spec.RomPage (r : Region) (p : Addr) : Prop :=
  (r.type ≠ .ram ∧ r.type ≠ .mmio ∧ r.type ≠ .unmapped) ∧ r.start ≤ pageNo p * 4096 ∧ pageNo p * 4096 + 4095 ≤ r.stop

/-- Nothing translates to a rom that covers page `q`. -/
def Spec.Writable (b : Bus) (q : Nat) : Prop := ∀ a, pageNo (b.locate a).2 = q → ¬ RomPage (b.locate a).1 (b.locate a).2

/-- The page is watched: writes to it are reported to the code cache. -/
def Spec.Watched (s : St) (q : Nat) : Prop := ∀ a, pageNo a = q → s.smc (a >>> 12) = true

theorem pageNo_iff (a b : Addr) : pageNo a = pageNo b ↔ a >>> 12 = b >>> 12 := by
  unfold pageNo
  rw [← BitVec.toNat_inj, BitVec.toNat_ushiftRight, BitVec.toNat_ushiftRight, Nat.shiftRight_eq_div_pow, Nat.shiftRight_eq_div_pow]

theorem kind_rom {r : Region} {p : Addr} (h : kindBits r p = 0x40#64) : RomPage r p := by
  unfold kindBits at h
  split at h
  · next hc =>
    have e : (pageBase p).toNat = p.toNat / 4096 * 4096 := by
      have : pageBase p = (p >>> 12) <<< 12 := by unfold pageBase; bits32
      rw [this, BitVec.toNat_shiftLeft, BitVec.toNat_ushiftRight, Nat.shiftLeft_eq, Nat.shiftRight_eq_div_pow]
      have := p.isLt
      omega
    have e2 : (pageBase p ||| 0xFFF#32).toNat = p.toNat / 4096 * 4096 + 4095 := by
      have : pageBase p ||| 0xFFF#32 = pageBase p + 0xFFF#32 := by
        rw [BitVec.add_eq_or_of_and_eq_zero]
        unfold pageBase; bits32
      rw [this, BitVec.toNat_add, e]
      have := p.isLt
      have : (0xFFF#32 : Addr).toNat = 4095 := by decide
      rw [this]
      omega
    rw [e, e2] at hc
    refine ⟨?_, hc⟩
    cases ht : r.type <;> simp [ht] at h ⊢
  · cases h

theorem smcAfter_keeps {b : Bus} {q : Nat} (hw : Writable b q) {smc : Addr → Bool} (phys : Addr) (prot : Word) (a : Addr) (ha : pageNo a = q)
    (h : smc (a >>> 12) = true) : smcAfter smc (b.locate phys).1 (b.locate phys).2 prot (a >>> 12) = true := by
  unfold smcAfter
  have h1 : (if prot &&& 16#32 ≠ 0#32 then (fun p => if p = (b.locate phys).2 >>> 12 then true else smc p) else smc) (a >>> 12) = true := by
    split
    · simp [h]
    · exact h
  generalize (if prot &&& 16#32 ≠ 0#32 then (fun p => if p = (b.locate phys).2 >>> 12 then true else smc p) else smc) = f at h1 ⊢
  split
  · next hk =>
    show (if a >>> 12 = (b.locate phys).2 >>> 12 then false else f (a >>> 12)) = true
    rw [if_neg]
    · exact h1
    · intro he
      exact hw phys (by rw [← ha]; exact ((pageNo_iff _ _).2 he).symm) (kind_rom hk)
  · exact h1

theorem smcAfter_sets {b : Bus} {phys : Addr} (hw : Writable b (pageNo (b.locate phys).2)) (smc : Addr → Bool) (prot : Word) (hp : prot &&& 16#32 ≠ 0#32)
    (a : Addr) (ha : pageNo a = pageNo (b.locate phys).2) : smcAfter smc (b.locate phys).1 (b.locate phys).2 prot (a >>> 12) = true := by
  unfold smcAfter
  rw [if_neg (fun hk => hw phys rfl (kind_rom hk)), if_pos hp, if_pos ((pageNo_iff _ _).1 ha)]

theorem watched_translate {b : Bus} {q : Nat} (hw : Writable b q) {s : St} (h : Watched s q) (f : Bool) (va : Addr) (wr pr sc : Bool) (v : Nat) :
    Watched (translate b s f va wr pr sc v).1 q := by
  unfold translate
  split
  · exact h
  · exact h
  · intro a ha
    unfold fill
    dsimp only
    split <;> exact smcAfter_keeps hw _ _ a ha (h a ha)

theorem watched_step {b : Bus} {q : Nat} (hw : Writable b q) {s : St} (h : Watched s q) (op : Op) : Watched (step b s op) q := by
  cases op with
  | read va pr v =>
    simp only [step, getRead]
    split
    · exact h
    · exact watched_translate hw h _ _ _ _ _ _
  | readSlow va pr v => exact watched_translate hw h _ _ _ _ _ _
  | write va pr v =>
    simp only [step, getWrite]
    split
    · exact h
    · exact watched_translate hw h _ _ _ _ _ _
  | writeSlow va pr v => exact watched_translate hw h _ _ _ _ _ _
  | code va sc v =>
    simp only [step, getCode]
    split
    · intro a ha
      have := h a ha
      dsimp only
      split <;> simp [this]
    · exact watched_translate hw h _ _ _ _ _ _
  | inval va => exact h
  | cpl l => exact h
  | store m => exact h
  | reload c m => exact h
  | reloadLocal c m => exact h

theorem walk_code {fix : Addr → Addr} {c : Ctl} {m m' : Mem} {va phys : Addr} {wr pr : Bool} {prot : Word}
    (h : walk fix c m va wr pr true = (.ok phys prot, m')) : prot &&& 16#32 ≠ 0#32 := by
  have tail : ∀ (mask : Word) (e : Word), (mask ||| protTail c e wr true) &&& 16#32 ≠ 0#32 := by
    intro mask e he
    have := congrArg (fun x : BitVec 32 => x[4]) he
    simp [protTail] at this
  unfold walk at h
  split at h
  · cases h; decide
  dsimp only at h
  split at h
  · cases h
  split at h
  · split at h
    · cases h
    · cases h
    · split at h
      · cases h
      · cases h; exact tail _ _
  split at h
  · cases h
  split at h
  · cases h
  split at h
  · cases h
  · cases h
  · split at h
    · cases h
    · cases h; exact tail _ _

theorem watched_run {b : Bus} {q : Nat} (hw : Writable b q) : ∀ (ops : List Op) {s : St}, Watched s q → Watched (run b s ops) q
  | [], _, h => h
  | op :: ops, _, h => watched_run hw ops (watched_step hw h op)

/-- **C75**: when the address of an instruction to execute was translated, the physical page it is on is watched from then on,
whatever is translated, flushed, invalidated or stored afterwards (until the code cache drops its last block of the page, which is
part of C46), unless the page is rom. -/
theorem C75_code_pages_stay_watched (b : Bus) (s : St) (va : Addr) (victim : Nat) (p : Addr) (hw : Writable b (pageNo p))
    (h : (getCode b s va true victim).2 = .ok p) (ops : List Op) : Watched (run b (getCode b s va true victim).1 ops) (pageNo p) := by
  refine watched_run hw ops ?_
  revert h
  unfold getCode
  split
  · dsimp only
    intro h
    cases h
    intro a ha
    simp only [if_true]
    rw [if_pos ((pageNo_iff _ _).1 ha)]
  · unfold translate
    split
    · intro h; cases h
    · intro h; cases h
    · next phys prot m hwalk =>
      intro h
      dsimp only [fill, if_true] at h ⊢
      simp only [Tr.ok.injEq] at h
      subst h
      intro a ha
      exact smcAfter_sets hw _ _ (walk_code hwalk) a ha

/-- A fetch, then reads, writes and a flush: still watched; a page nothing was fetched from is not. -/
example : Writable exBus (pageNo 0x3004#32) ∧ (∃ p, (getCode exBus exSt 0x3004#32 true 0).2 = .ok p ∧
    (run exBus (getCode exBus exSt 0x3004#32 true 0).1 [.readSlow 0x3004#32 false 0, .write 0x3008#32 false 0, .reload (exCtl 0#2 true) exMem]).smc (p >>> 12) = true ∧
    (run exBus (getCode exBus exSt 0x3004#32 true 0).1 [.readSlow 0x3004#32 false 0]).smc ((p >>> 12) + 1#32) = false) := by
  refine ⟨fun a _ h => h.1.1 rfl, _, rfl, ?_, ?_⟩ <;> decide +kernel

end Verif.Paging
