import Verif.Props.Msr
import Verif.Props.PrivEx
namespace Verif.Priv
open Seg

/-- C32 on whole machine states: at CPL 0, WRMSR with a register number in ECX that stores its value and no reserved bits in
EDX:EAX completes; whatever EAX and EDX hold afterwards, RDMSR with the same ECX puts the written value back in EDX:EAX and
changes nothing else of the machine; no other model-specific register reads differently.  Missing: the registers named at
C32_roundtrip_partial. -/
theorem C32_machine_partial (acc : Acc) (s : St) (m : BitVec 64) (hc : s.c.r.hflags.setWidth 2 = 0#2)
    (hs : Msr.Stored (s.gpr 1).toNat m) (hv : Msr.pair ⟨s.gpr 0, s.gpr 1, s.gpr 2⟩ &&& m = 0#64)
    (hp : Msr.PatOk (s.gpr 1).toNat (Msr.pair ⟨s.gpr 0, s.gpr 1, s.gpr 2⟩)) :
    ∃ msr, step acc .wrmsr s = .done { s with msr := msr } ∧
      (∀ a d, step acc .rdmsr (setG 2 d (setG 0 a { s with msr := msr })) = .done { s with msr := msr }) ∧
      ∀ e, e ≠ (s.gpr 1).toNat → Msr.read msr e = Msr.read s.msr e := by
  obtain ⟨m', hw, hr, hf⟩ := Msr.C32_roundtrip_partial ⟨s.gpr 0, s.gpr 1, s.gpr 2⟩ s.msr m hs hv hp
  refine ⟨m', ?_, fun a d => ?_, hf⟩
  · show wrmsr s = _
    unfold wrmsr
    rw [hc, hw]
  · have hr2 : Msr.rdmsr 0#2 ⟨a, s.gpr 1, d⟩ m' = .ok ⟨s.gpr 0, s.gpr 1, s.gpr 2⟩ m' := by
      unfold Msr.rdmsr at hr ⊢
      rw [if_neg (by decide)] at hr ⊢
      simp only at hr ⊢
      split at hr
      · cases hr
      · injection hr with h1 h2
        rw [Msr.Regs.mk.injEq] at h1
        rw [h1.1, h1.2.2]
    show rdmsr _ = _
    unfold rdmsr
    have e1 : (setG 2 d (setG 0 a { s with msr := m' })).c.r.hflags.setWidth 2 = 0#2 := hc
    have e2 : (⟨(setG 2 d (setG 0 a { s with msr := m' })).gpr 0, (setG 2 d (setG 0 a { s with msr := m' })).gpr 1,
        (setG 2 d (setG 0 a { s with msr := m' })).gpr 2⟩ : Msr.Regs) = ⟨a, s.gpr 1, d⟩ := rfl
    rw [e1, e2]
    rw [show (setG 2 d (setG 0 a { s with msr := m' })).msr = m' from rfl, hr2]
    simp only [setG, Fin.reduceEq, if_false]
    refine congrArg Res.done ?_
    have : (fun j : Fin 8 => if j = 2 then s.gpr 2 else if j = 0 then s.gpr 0 else if j = 2 then d else if j = 0 then a else s.gpr j) = s.gpr := by
      funext j
      by_cases h2 : j = 2
      · rw [if_pos h2, h2]
      · by_cases h0 : j = 0
        · rw [if_neg h2, if_pos h0, h0]
        · simp only [if_neg h2, if_neg h0]
    rw [this]

-- a kernel that writes SYSENTER_ESP (0x175): EDX:EAX is 0x102:0x100
/-- The example kernel with ECX = 0x175. -/
def msrKern : St := { PrivP.kern with gpr := fun i => if i = 1 then 0x175#32 else PrivP.kern.gpr i }
example : msrKern.c.r.hflags.setWidth 2 = 0#2 := by decide +kernel
example : Msr.Stored (msrKern.gpr 1).toNat 0#64 ∧ Msr.pair ⟨msrKern.gpr 0, msrKern.gpr 1, msrKern.gpr 2⟩ = 0x10200000100#64 ∧
    Msr.PatOk (msrKern.gpr 1).toNat (Msr.pair ⟨msrKern.gpr 0, msrKern.gpr 1, msrKern.gpr 2⟩) :=
  ⟨.sysEsp, by decide +kernel, fun h => absurd h (by decide +kernel)⟩
end Verif.Priv
