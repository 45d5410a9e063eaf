/-
Specification of direct memory accesses (the inline page table of the Xbox build).
-/
import Verif.Model.Ipt

namespace Verif.Ipt.Spec
open Verif.AS (Region MemType)
open Verif.Paging (Addr Word Query)
open Verif.Block (Cell)
open Verif.Ipt

/-- In the same page of 4096 bytes. -/
def SamePage (a b : Addr) : Prop := a.toNat / 4096 = b.toNat / 4096

/-- The page of `p` with the offset of `a`. -/
def withOff (p a : Addr) : Addr := (p &&& 0xFFFFF000#32) ||| (a &&& 0xFFF#32)

/-- The region a physical address belongs to and the address inside it, an alias being followed. -/
def place (w : World) (phys : Addr) : Region × Addr :=
  if (w.search phys).type = .alias then w.resolve (w.search phys) phys else (w.search phys, phys)

/-- The host byte the memory handlers use for a physical address: ram[address - start of the region], or the byte of the rom. -/
inductive Behind (w : World) (phys : Addr) : Cell → Prop
  | ram {r p} : place w phys = (r, p) → r.type = .ram → Behind w phys (.ram (p - BitVec.ofNat 32 r.buffOff).toNat)
  | rom {r p} : place w phys = (r, p) → r.type = .rom → Behind w phys (.rom r.romPtr (p - BitVec.ofNat 32 r.buffOff).toNat)

/-- The guest's linear address `a` denotes this host byte for reads (`wr` false) or writes: translation succeeds and gives a
physical address with this byte behind it. -/
def Denotes (w : World) (wr : Bool) (a : Addr) (c : Cell) : Prop := ∃ phys info, w.query wr a = .ok phys info ∧ Behind w phys c

/-- Translations and the memory map are made of whole pages: what holds for one byte of a page holds for all of it. -/
structure PageWise (w : World) : Prop where
  query : ∀ wr a b phys info, SamePage a b → w.query wr a = .ok phys info → w.query wr b = .ok (withOff phys b) info
  search : ∀ a b, SamePage a b → w.search a = w.search b
  resolve : ∀ r a b, SamePage a b → w.resolve r b = ((w.resolve r a).1, withOff (w.resolve r a).2 b)
  base : ∀ phys, (place w phys).1.buffOff % 4096 = 0

/-- `P` holds of the world before every event of the history and at its end. -/
def Always (P : World → Prop) (w0 : World) (es : List Ev) : Prop := ∀ pre post, es = pre ++ post → P (run w0 pre).w

/-- The guest (INVLPG, a tlb flush) or the client (a new memory map) has asked for the translation of `a` to be forgotten. -/
def Forgets (a : Addr) : Ev → Prop
  | .flush => True
  | .invlpg b => SamePage a b
  | .remap _ _ => True
  | _ => False

/-- The bytes of a page of ram, seen from physical addresses: `phys` lies in the page of ram at offset `off`. -/
def InRam (w : World) (phys : Addr) (off : Addr) : Prop :=
  (place w phys).1.type = .ram ∧ ((place w phys).2 - BitVec.ofNat 32 (place w phys).1.buffOff) &&& 0xFFFFF000#32 = off

/-- Every translation to this page of ram is read-only. -/
def ReadOnly (off : Addr) (w : World) : Prop := ∀ wr a phys info, w.query wr a = .ok phys info → InRam w phys off → info &&& 2#32 = 0#32

/-- Ram appears once in the physical address space, in whole pages and without aliases. -/
structure OneHome (w : World) : Prop where
  whole : ∀ p q off, SamePage p q → InRam w p off → InRam w q off
  plain : ∀ phys, (w.search phys).type ≠ .alias
  once : ∀ p q off, InRam w p off → InRam w q off → SamePage p q

/-- Every byte of `[lo, hi]` lies outside of the page of `a`. -/
def Apart (a lo hi : Addr) : Prop := ∀ x : Addr, lo ≤ x → x ≤ hi → ¬ SamePage a x

/-- Fetches of code all go through the filling of the tlb, and the memory map stays. -/
def Fills : Ev → Prop
  | .fetch _ fill => fill = true
  | .remap _ _ => False
  | _ => True

end Verif.Ipt.Spec
