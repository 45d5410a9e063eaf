import Verif.Spec.Mode
/-
Segment registers in real and vm86 mode (SDM vol. 3, 21.1.1 and 21.2): the base is the selector times 16; the limit and the attributes are not
loaded.
-/
namespace Verif.Seg.Spec

/-- The base is the selector times 16. -/
def Paragraph (g : SegReg) : Prop := g.base.toNat = 16 * g.sel.toNat

/-- `g` after loading a selector in real or vm86 mode. -/
def paragraph (g : SegReg) (sel : BitVec 16) : SegReg := { g with sel := sel, base := BitVec.ofNat 32 (16 * sel.toNat) }

/-- All segment registers of a vm86 task. -/
def Vm86Segs (r : Regs) : Prop := ∀ i : SR, Paragraph (r.get i) ∧ (r.get i).limit = 0xFFFF#32

/-- The segment register was not loaded since it contained `g0`, or it was loaded in real mode: limit and attributes are those of `g0`. -/
def RealSeg (g0 g : SegReg) : Prop := g = g0 ∨ (Paragraph g ∧ g.limit = g0.limit ∧ g.flags = g0.flags)

end Verif.Seg.Spec
