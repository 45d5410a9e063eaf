import Verif.Lemmas.TcHook
/-
C46 no stale code after a write, C47 cached blocks are fresh code, C48 links, C51 hooks.
-/
namespace Verif.Tc

/-! ### Specification -/

/-- The instructions of a block are what the translator would produce now from memory, at the physical address
and in the mode of the block. -/
def Current (d : Decoder) (s : St) (t : Tc) : Prop :=
  t.body = (translateLoop d t.flags s.mem s.map 4096 t.pc t.virt).1 ∧
  t.size = (translateLoop d t.flags s.mem s.map 4096 t.pc t.virt).2.1

/-- The decoded instructions of a block are the bytes in memory at its address. -/
def SameBytes (s : St) (t : Tc) : Prop :=
  bytesOf t.body = (List.range t.size).map (fetch s.mem s.map t.pc t.virt)

/-- Events outside the known defects: the code cache is not full at a new block, data writes do not cross a page,
and a CALL that pushes its block happens in a cached block with the return address on the same page. -/
abbrev Ok (s : St) (o : Op) : Prop := Sane s o ∧ SaneCall s o

/-- In addition, no code is reached through two linear addresses. -/
abbrev OkMap (s : St) (o : Op) : Prop := Sane s o ∧ SaneCall s o ∧ SaneMap s o

/-- The hooks defined by a history. -/
def hooksOf (m : BitVec 32 → Option Nat) (os : List Op) : BitVec 32 → Option Nat := os.foldl hooksAfter m

/-! ### A decoder and memory for the examples -/

/-- 0x90 is an instruction of one byte, 0xC3 one that ends a block, the rest does not decode. -/
def tiny : Decoder := fun _ f => if f 0 = 0x90#8 then .ok 1 false else if f 0 = 0xC3#8 then .ok 1 true else .bad

theorem tiny_len : LenOk tiny := by
  intro fl f n e h
  unfold tiny at h
  split at h
  · cases h; decide
  · split at h
    · cases h; decide
    · cases h

theorem tiny_local : Local tiny := by
  intro fl f g n e h hg
  unfold tiny at h ⊢
  split at h
  · rename_i h0; cases h; rw [← hg 0 (by decide), if_pos h0]
  · rename_i h0
    split at h
    · rename_i h1; cases h; rw [← hg 0 (by decide), if_neg h0, if_pos h1]
    · cases h

/-- A nop at 0x1000 and returns elsewhere. -/
def code : BitVec 32 → BitVec 8 := fun a => if a = 0x1000#32 then 0x90#8 else 0xC3#8
/-- Nothing decodes. -/
def junk : BitVec 32 → BitVec 8 := fun _ => 0#8
def ident : BitVec 20 → BitVec 20 := fun p => p

/-! ### C46 -/

/-- **C46** (partial): in every history outside the known defects, a block that starts executing, through the main
loop, a direct jump or a return, consists of the bytes that are in memory now. -/
theorem C46_bytes_partial (d : Decoder) (hl : LenOk d) (mem : BitVec 32 → BitVec 8) (map : BitVec 20 → BitVec 20)
    (os : List Op) (hs : All d Ok (reset mem map) os) (o : Op) (t : Tc)
    (he : (step d (hist d (reset mem map) os) o).1 = some t) : SameBytes (hist d (reset mem map) os) t := by
  obtain ⟨h, hr⟩ := rsb_hist d hl os _ (inv_reset mem map) (rsb_reset mem map) hs
  generalize hist d (reset mem map) os = s at h hr he
  rcases exec_in h hr he with ⟨h1, _, _⟩ | ⟨v, link, rfl, rfl⟩
  · have g := h.good t h1
    unfold SameBytes
    apply List.ext_getElem?
    intro i
    by_cases hi : i < t.size
    · have := g.onPage
      rw [g.bytes i hi, List.getElem?_map, List.getElem?_range hi, Option.map_some, fetch_page]
      have := g.low
      omega
    · rw [List.getElem?_eq_none (by rw [g.len]; omega), List.getElem?_eq_none (by simp; omega)]
  · unfold SameBytes translate
    dsimp only
    split
    · rfl
    · exact loop_bytes ..

/-- **C46** (partial): such a block, if all its bytes decoded, is exactly what translating it now would give. -/
theorem C46_current_partial (d : Decoder) (hl : LenOk d) (hd : Local d) (mem : BitVec 32 → BitVec 8)
    (map : BitVec 20 → BitVec 20) (os : List Op) (hs : All d Ok (reset mem map) os) (o : Op) (t : Tc)
    (he : (step d (hist d (reset mem map) os) o).1 = some t) (hh : t.hook = none) (hb : NoBad t.body) :
    Current d (hist d (reset mem map) os) t := by
  obtain ⟨h, hr⟩ := rsb_hist d hl os _ (inv_reset mem map) (rsb_reset mem map) hs
  have hf := fresh_hist hl hd os _ (inv_reset mem map) (fresh_reset d mem map) (hs.imp fun _ _ h => h.1)
  generalize hist d (reset mem map) os = s at h hr he hf
  rcases exec_in h hr he with ⟨h1, _, _⟩ | ⟨v, link, rfl, rfl⟩
  · unfold Current
    rw [hf t h1 hh hb s.map]
    exact ⟨rfl, rfl⟩
  · have hk := translate_key d s v
    have ht := translate_loop d s v hh
    unfold Current
    rw [hk.2.1, hk.2.2.1, hk.2.2.2.2]
    exact ⟨ht.1, ht.2.1⟩

/-- The premises hold for a history that runs a block, overwrites it and runs it again: the new bytes run. -/
example : All tiny Ok (reset code ident) [.run 0x1000#32 false, .write 0x1001#32 [0x90#8, 0xC3#8]] ∧
    (step tiny (hist tiny (reset code ident) [.run 0x1000#32 false, .write 0x1001#32 [0x90#8, 0xC3#8]])
      (.run 0x1000#32 false)).1.map (·.size) = some 3 ∧
    (step tiny (reset code ident) (.run 0x1000#32 false)).1.map (·.size) = some 2 := by
  refine ⟨⟨⟨?_, trivial⟩, ⟨?_, trivial⟩, trivial⟩, by decide +kernel, by decide +kernel⟩
  · show 0 ≠ 32768; decide
  · show _ % 4096 + _ ≤ 4096; decide

/-- **C46** is violated by a write across a page: only the last byte of the second page is invalidated, and a block
containing the byte before it goes on running the old code. -/
theorem C46_cross_page_violation : ∃ t,
    (step tiny (hist tiny (reset code ident)
      [.run 0x2000#32 false, .writeCross 0x1FFE#32 [0x90#8, 0x90#8, 0x90#8, 0xC3#8]]) (.run 0x2000#32 false)).1 = some t ∧
    t.hook = none ∧ NoBad t.body ∧
    ¬ Current tiny (hist tiny (reset code ident)
      [.run 0x2000#32 false, .writeCross 0x1FFE#32 [0x90#8, 0x90#8, 0x90#8, 0xC3#8]]) t := by
  refine ⟨⟨0, 0xFFFF0000#32, 0x2000#32, 0x2000#32, 0#32, 1, [.ok [0xC3#8]], none⟩, by decide +kernel, rfl, by simp [NoBad], ?_⟩
  unfold Current
  decide +kernel

/-- **C46** is violated by a block that starts with undecodable bytes: it counts no bytes, so no write removes it. -/
theorem C46_undecodable_violation : ∃ t,
    All tiny Ok (reset junk ident) [.run 0x1000#32 false, .write 0x1000#32 [0xC3#8]] ∧
    (step tiny (hist tiny (reset junk ident) [.run 0x1000#32 false, .write 0x1000#32 [0xC3#8]]) (.run 0x1000#32 false)).1 =
      some t ∧ t.hook = none ∧
    ¬ Current tiny (hist tiny (reset junk ident) [.run 0x1000#32 false, .write 0x1000#32 [0xC3#8]]) t := by
  refine ⟨⟨0, 0xFFFF0000#32, 0x1000#32, 0x1000#32, 0#32, 0, [.bad], none⟩, ⟨⟨?_, trivial⟩, ⟨?_, trivial⟩, trivial⟩,
    by decide +kernel, rfl, ?_⟩
  · show 0 ≠ 32768; decide
  · show _ % 4096 + _ ≤ 4096; decide
  · unfold Current
    decide +kernel

/-- States reached by running and clearing `n` times. -/
structure Filled (n : Nat) (s : St) : Prop where
  num : s.num = n
  cache : s.cache = fun _ => []
  mem : s.mem = code
  map : s.map = ident
  flags : s.flags = 0#32
  csBase : s.csBase = 0xFFFF0000#32
  hooks : s.hooks = fun _ => none
  pages : s.pages = fun _ => []

/-- The block at 0x2000. -/
def retBlock (id : Nat) : Tc := ⟨id, 0xFFFF0000#32, 0x2000#32, 0x2000#32, 0#32, 1, [.ok [0xC3#8]], none⟩

theorem translate_ret (s : St) (hm : s.mem = code) (hp : s.map = ident) (hf : s.flags = 0#32)
    (hc : s.csBase = 0xFFFF0000#32) (hk : s.hooks = fun _ => none) :
    translate tiny s 0x2000#32 = (retBlock s.next, true) := by
  have e1 : translateLoop tiny 0#32 code ident 4096 0x2000#32 0x2000#32 = ([.ok [0xC3#8]], 1, false) := by decide +kernel
  have e2 : phys ident 0x2000#32 = 0x2000#32 := by decide
  unfold translate
  dsimp only
  rw [hm, hp, hf, hc, hk, e2, if_pos (by decide)]
  dsimp only
  rw [e1]
  rfl

/-- The state in which a block is looked for. -/
def looking (s : St) : St := { s with smc := upd s.smc (page (phys s.map 0x2000#32)) true, now := 0x2000#32 }

theorem run_filled (n : Nat) (s : St) (h : Filled n s) :
    (mainLoop tiny s 0x2000#32 false).2 =
      { insert (if s.num == 32768 then purge { looking s with next := s.next + 1 } else { looking s with next := s.next + 1 })
          (retBlock s.next) with cur := some (retBlock s.next) } := by
  have hs : search (looking s) (phys s.map 0x2000#32) = none := by
    unfold search looking; rw [h.cache]; rfl
  have ht : translate tiny (looking s) 0x2000#32 = (retBlock s.next, true) :=
    translate_ret (looking s) h.mem h.map h.flags h.csBase h.hooks
  unfold mainLoop
  dsimp only
  rw [show search { s with smc := upd s.smc (page (phys s.map 0x2000#32)) true, now := 0x2000#32 } (phys s.map 0x2000#32) = none from hs,
    show translate tiny { s with smc := upd s.smc (page (phys s.map 0x2000#32)) true, now := 0x2000#32 } 0x2000#32 = (retBlock s.next, true) from ht]
  rfl

/-- One more block is counted. -/
theorem filled_step (n : Nat) (hn : n ≠ 32768) (s : St) (h : Filled n s) :
    Filled (n + 1) (hist tiny s [.run 0x2000#32 false, .clear]) := by
  have hf : (s.num == 32768) = false := by rw [h.num]; simpa using hn
  show Filled (n + 1) (clear (mainLoop tiny s 0x2000#32 false).2)
  rw [run_filled n s h, hf]
  refine ⟨?_, rfl, h.mem, h.map, h.flags, h.csBase, h.hooks, rfl⟩
  show s.num + 1 = n + 1
  rw [h.num]

/-- A history that fills the code cache. -/
def fill : Nat → List Op
  | 0 => []
  | n + 1 => fill n ++ [.run 0x2000#32 false, .clear]

theorem hist_append (d : Decoder) (s : St) (a b : List Op) : hist d s (a ++ b) = hist d (hist d s a) b := by
  induction a generalizing s with
  | nil => rfl
  | cons o a ih => exact ih _

theorem filled_fill (n : Nat) (hn : n ≤ 32768) : Filled n (hist tiny (reset code ident) (fill n)) := by
  induction n with
  | zero => exact ⟨rfl, rfl, rfl, rfl, rfl, rfl, rfl, rfl⟩
  | succ n ih =>
    show Filled (n + 1) (hist tiny _ (fill n ++ _))
    rw [hist_append]
    exact filled_step n (by omega) _ (ih (by omega))

/-- **C46** is violated when the code cache is full: it is purged after the page of the new block was marked as
holding code, so the new block is inserted unmarked, and a write to it does not remove it. -/
theorem C46_purge_violation : ∃ os t, (step tiny (hist tiny (reset code ident) os) (.run 0x2000#32 false)).1 = some t ∧
    t.hook = none ∧ NoBad t.body ∧ ¬ Current tiny (hist tiny (reset code ident) os) t := by
  obtain ⟨n, hn⟩ : ∃ n, n = 32768 := ⟨_, rfl⟩
  have h := filled_fill n (by omega)
  refine ⟨fill n ++ [.run 0x2000#32 false, .write 0x2000#32 [0x90#8]], ?_⟩
  rw [hist_append]
  generalize hist tiny (reset code ident) (fill n) = s at h
  have hf : (s.num == 32768) = true := by rw [h.num, hn]; rfl
  refine ⟨retBlock s.next, ?_⟩
  -- the state after the block was inserted and overwritten
  have key : ∃ S, hist tiny s [.run 0x2000#32 false, .write 0x2000#32 [0x90#8]] = S ∧ S.map = ident ∧ S.csBase = 0xFFFF0000#32 ∧
      S.flags = 0#32 ∧ S.mem 0x2000#32 = 0x90#8 ∧ S.cache (hash 0x2000#32) = [retBlock s.next] := by
    have e0 : hist tiny s [.run 0x2000#32 false, .write 0x2000#32 [0x90#8]] =
      write (mainLoop tiny s 0x2000#32 false).2 0x2000#32 [0x90#8] := rfl
    rw [e0, run_filled _ s h, hf]
    exact ⟨_, rfl, h.map, h.csBase, h.flags, rfl, rfl⟩
  obtain ⟨S, e, h1, h2, h3, h4, h5⟩ := key
  rw [e]
  have hp : phys S.map 0x2000#32 = 0x2000#32 := by rw [h1]; decide
  have hsr : search S (phys S.map 0x2000#32) = some (retBlock s.next) := by
    unfold search
    rw [hp, h5, List.find?_cons_of_pos]
    show ((0xFFFF0000#32 == S.csBase && 0x2000#32 == 0x2000#32) && 0#32 == S.flags) = true
    rw [h2, h3]; decide
  refine ⟨?_, rfl, by simp [NoBad, retBlock], ?_⟩
  · rcases run_exec tiny S 0x2000#32 false with ⟨t, g1, g2⟩ | ⟨g1, _⟩
    · rw [g2, ← hsr, g1]
    · rw [hsr] at g1; cases g1
  · intro hc
    have := hc.1
    dsimp only [retBlock] at this
    unfold translateLoop at this
    have hf : fetch S.mem S.map 0x2000#32 0x2000#32 0 = 0x90#8 := by
      unfold fetch; dsimp only; rw [if_pos (by decide)]; exact h4
    have hd : tiny 0#32 (fetch S.mem S.map 0x2000#32 0x2000#32) = .ok 1 false := by
      unfold tiny; rw [if_pos hf]
    rw [hd] at this
    dsimp only at this
    rw [if_neg (by decide)] at this
    have := congrArg List.head? this
    simp [hf] at this

end Verif.Tc
