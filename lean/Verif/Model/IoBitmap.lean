import Verif.Model.GuestMem
/-
The I/O permission check: core/emitter/x64/jit.cpp 2148-2203 (gen_check_io_priv), the path taken when
CPL > IOPL or in virtual 8086 mode.
-/
namespace Verif.IoBitmap
open Guest

/-- Outcome of the check: #GP, page fault of one of the two reads, access allowed. -/
inductive Out where | gp | pf | allow
deriving DecidableEq, Repr

/-- jit.cpp 2154-2197. `base` and `limit` are the cached TSS base and limit, `size` is 1, 2 or 4 bytes.
The two reads go through LD_MEMs, an ordinary read with the privileges of the running code (`ok`).
`r10` and `r11` are what the first read leaves in R10D and R11D: the emitted code keeps TSS base + 102
and the limit there, but both are volatile in the host's calling convention and are also overwritten
by the inline path of the XBOX_CPU build (jit.cpp 1900-1904). -/
def check (ok : Ok) (m : Mem) (base limit : BitVec 32) (port : BitVec 16) (size : Nat)
    (r10 r11 : BitVec 32) : Out :=
  if limit.toNat < 103 then .gp
  else if ok (base + 102#32) 2 false then
    let a := BitVec.ofNat 32 (load m (base + 102#32) 2) + (port >>> 3).setWidth 32 + 1#32
    if r11.toNat < a.toNat then .gp
    else if ok (a + r10) 2 false then
      if (load m (a + r10) 2 >>> (port.toNat % 8)) &&& (2 ^ size - 1) = 0 then .allow else .gp
    else .pf
  else .pf

/-- The check when the first read leaves R10 and R11 alone. -/
def checkPreserved (ok : Ok) (m : Mem) (base limit : BitVec 32) (port : BitVec 16) (size : Nat) : Out :=
  check ok m base limit port size (base + 102#32) limit

end Verif.IoBitmap
