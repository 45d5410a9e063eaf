import Verif.Spec.FarCall
import Verif.Model.FarRet
import Verif.Props.IretResume
import Verif.Props.FarJmp
import Verif.Props.Gate
/-
The far call helper in pieces, and what its pushes leave on the stack.
-/
namespace Verif.Seg
open Guest (load store load_store store_other load_congr)
open Spec (FaultOr stackAddr stackItem mode level stack32 AgreeCore CallFrame FrameApart Roomy)

theorem bind_assocM {α β γ : Type} (x : M α) (f : α → M β) (g : β → M γ) : (x >>= f) >>= g = x >>= fun a => f a >>= g := by
  funext s
  cases hx : x s with
  | ok a s' => rw [bind_of_ok hx]; show (match (x >>= f) s with | .ok a s' => g a s' | .stop e s' => .stop e s') = _; rw [bind_of_ok hx]; rfl
  | stop e s' => rw [bind_of_stop hx]; exact bind_of_stop (bind_of_stop hx)

/-- A direct call after the descriptor was checked. -/
def callPush (acc : Acc) (sel : BitVec 16) (call : BitVec 32) (k : Nat) (ret : BitVec 32) (r : Regs) (a : BitVec 32) (d : BitVec 64) : M Unit := do
  let sp ← pushV acc k r.esp (r.cs.sel.setWidth 32)
  let sp ← pushV acc k sp ret
  setAccessed acc d a
  loadDesc .cs (selErr sel ||| (cpl r).setWidth 16) d
  modR fun r => { r with esp := sp, eip := call }

/-- Where every call ends. -/
def callEnd (acc : Acc) (csel : BitVec 16) (neip : BitVec 32) (ca : BitVec 32) (cd : BitVec 64) (sp : BitVec 32) : M Unit := do
  setAccessed acc cd ca
  loadDesc .cs (selErr csel ||| (dDpl cd).setWidth 16) cd
  modR fun r => { r with esp := sp, eip := neip }

/-- The pushes of a call to an inner level. -/
def callInner (acc : Acc) (r : Regs) (ret : BitVec 32) (w n : Nat) (base mask tesp : BitVec 32) : M (BitVec 32) := do
  let sp ← pushRaw acc w base mask 2 tesp (r.ss.sel.setWidth 32)
  let sp ← pushRaw acc w base mask 2 sp r.esp
  let sp ← copyParams acc w base mask r.ss.base r.esp n sp
  let sp ← pushRaw acc w base mask 2 sp (r.cs.sel.setWidth 32)
  pushRaw acc w base mask 2 sp ret

def callStack (acc : Acc) (r : Regs) (ret : BitVec 32) (w n : Nat) (cd : BitVec 64) (tesp : BitVec 32) (ss : BitVec 16)
    (sa : BitVec 32) (sd : BitVec 64) (f : BitVec 32 → M Unit) : M Unit := do
  let v := ((sd &&& 0x100000000000#64) >>> 44) ||| ((sd &&& 0x80000000000#64) >>> 42) |||
    ((sd &&& 0x20000000000#64) >>> 39) ||| ((sd &&& 0x600000000000#64) >>> 42) ||| (rpl ss <<< 5)
  check (v ^^^ (5#64 ||| (dDpl cd <<< 3) ||| (dDpl cd <<< 5)) != 0#64) (.exc TS (selErr ss))
  check (!dP sd) (.exc SSx (selErr ss))
  let sp ← callInner acc r ret w n (descBase sd) (stackMask (dDB sd)) tesp
  setAccessed acc sd sa
  loadDesc .ss (selErr ss ||| (dDpl cd).setWidth 16) sd
  f sp

def callGate2 (acc : Acc) (r : Regs) (ret : BitVec 32) (d : BitVec 64) (csel : BitVec 16) (ca : BitVec 32) (cd : BitVec 64) : M Unit := do
  check (!(dS cd && dCode cd) || decide (cpl r < dDpl cd)) (.exc GP (selErr csel))
  check (!dP cd) (.exc NP (selErr csel))
  let w := if dTy d >>> 3 = 0#64 then 2 else 4
  let neip : BitVec 32 := (((d &&& 0xFFFF000000000000#64) >>> 32) ||| (d &&& 0xFFFF#64)).setWidth 32
  if !dConf cd && decide (dDpl cd < cpl r) then
    let t ← tssStack acc (dDpl cd).toNat 0
    check (isNull t.2) (.exc TS (selErr t.2))
    let p ← readDesc acc false t.2
    callStack acc r ret w (d >>> 32 &&& 0x1F#64).toNat cd t.1 t.2 p.1 p.2 (callEnd acc csel neip ca cd)
  else
    let mask := stackMask (r.hflags &&& H_SS32 != 0#32)
    let sp ← pushRaw acc w r.ss.base mask 0 r.esp (r.cs.sel.setWidth 32)
    let sp ← pushRaw acc w r.ss.base mask 0 sp ret
    callEnd acc csel neip ca cd sp

def callGate (acc : Acc) (sel : BitVec 16) (ret : BitVec 32) (r : Regs) (d : BitVec 64) : M Unit := do
  check (dTy d == 1#64 || dTy d == 5#64 || dTy d == 9#64) .abort
  check (!(dTy d == 4#64 || dTy d == 12#64)) (.exc GP (selErr sel))
  check (decide (dDpl d < cpl r) || decide (dDpl d < rpl sel)) (.exc GP (selErr sel))
  check (!dP d) (.exc NP (selErr sel))
  let csel : BitVec 16 := ((d &&& 0xFFFF0000#64) >>> 16).setWidth 16
  check (isNull csel) (.exc GP 0#16)
  let p ← readDesc acc false csel
  callGate2 acc r ret d csel p.1 p.2

def callDirect (acc : Acc) (sel : BitVec 16) (call : BitVec 32) (k : Nat) (ret : BitVec 32) (r : Regs) (a : BitVec 32) (d : BitVec 64) : M Unit := do
  check (!dCode d) (.exc GP (selErr sel))
  if dConf d then check (decide (cpl r < dDpl d)) (.exc GP (selErr sel))
  else check (decide (cpl r < rpl sel) || dDpl d != cpl r) (.exc GP (selErr sel))
  check (!dP d) (.exc NP (selErr sel))
  callPush acc sel call k ret r a d

theorem lcallPe_eq (acc : Acc) (sel : BitVec 16) (call : BitVec 32) (k : Nat) (ret : BitVec 32) :
    lcallPe acc sel call k ret = (getR >>= fun r => check (isNull sel) (.exc GP 0#16) >>= fun _ => readDesc acc false sel >>= fun p =>
      if dS p.2 then callDirect acc sel call k ret r p.1 p.2 else callGate acc sel ret r p.2) := by
  unfold lcallPe
  refine congrArg (getR >>= ·) (funext fun r => ?_)
  refine congrArg (check (isNull sel) (.exc GP 0#16) >>= ·) (funext fun _ => ?_)
  refine congrArg (readDesc acc false sel >>= ·) (funext fun p => ?_)
  obtain ⟨a, d⟩ := p
  by_cases h : dS d = true
  · simp only [h, if_true]
    rfl
  · simp only [h]
    unfold callGate
    refine congrArg (check _ _ >>= ·) (funext fun _ => ?_)
    refine congrArg (check _ _ >>= ·) (funext fun _ => ?_)
    refine congrArg (check _ _ >>= ·) (funext fun _ => ?_)
    refine congrArg (check _ _ >>= ·) (funext fun _ => ?_)
    refine congrArg (check _ _ >>= ·) (funext fun _ => ?_)
    refine congrArg (readDesc _ _ _ >>= ·) (funext fun p => ?_)
    obtain ⟨ca, cd⟩ := p
    unfold callGate2
    refine congrArg (check _ _ >>= ·) (funext fun _ => ?_)
    refine congrArg (check _ _ >>= ·) (funext fun _ => ?_)
    dsimp only
    split
    · refine congrArg (tssStack _ _ _ >>= ·) (funext fun p => ?_)
      obtain ⟨ts, ss⟩ := p
      refine congrArg (check _ _ >>= ·) (funext fun _ => ?_)
      refine congrArg (readDesc _ _ _ >>= ·) (funext fun p => ?_)
      obtain ⟨sa, sd⟩ := p
      unfold callStack callInner
      dsimp only
      simp only [bind_assocM]
      rfl
    · rfl

/-- The general push helper agrees with the plain one where it does not truncate. -/
theorem pushV_raw (acc : Acc) (k : Nat) (hk : k = 2 ∨ k = 4) (sp v : BitVec 32) (s : Cpu) (b : Bool) (hb : (s.r.hflags &&& H_SS32 != 0#32) = b)
    (h : (b = true ∧ k = 4) ∨ (k ≤ sp.toNat ∧ sp.toNat < 65536)) :
    pushV acc k sp v s = pushRaw acc k s.r.ss.base (stackMask b) 0 sp v s := by
  have e : ∀ x : BitVec 32, (x + s.r.ss.base) = s.r.ss.base + x := fun x => BitVec.add_comm _ _
  have key : (if s.r.hflags &&& H_SS32 ≠ 0#32 ∧ k = 4 then sp - 4#32 else ((sp.setWidth 16 : BitVec 16) - BitVec.ofNat 16 k).setWidth 32)
      = (sp - BitVec.ofNat 32 k) ∧ (sp - BitVec.ofNat 32 k) &&& stackMask b = sp - BitVec.ofNat 32 k := by
    have hsp := sp.isLt
    have small : k ≤ sp.toNat → sp.toNat < 65536 → (((sp.setWidth 16 : BitVec 16) - BitVec.ofNat 16 k).setWidth 32 : BitVec 32) = sp - BitVec.ofNat 32 k := by
      intro h1 h2
      apply BitVec.eq_of_toNat_eq
      rw [BitVec.toNat_setWidth, BitVec.toNat_sub, BitVec.toNat_sub, BitVec.toNat_setWidth, BitVec.toNat_ofNat, BitVec.toNat_ofNat]
      rcases hk with rfl | rfl <;> omega
    rcases h with ⟨rfl, rfl⟩ | ⟨h1, h2⟩
    · rw [bne_iff_ne] at hb
      rw [if_pos ⟨hb, rfl⟩]
      exact ⟨rfl, by rw [mask_eq, if_pos rfl]⟩
    · constructor
      · split
        next hc => rw [hc.2]
        next => exact small h1 h2
      · rw [mask_eq]
        cases b
        · rw [if_neg (by simp)]
          apply BitVec.eq_of_toNat_eq
          rw [low16_toNat, BitVec.toNat_sub, BitVec.toNat_ofNat]
          rcases hk with rfl | rfl <;> omega
        · rw [if_pos rfl]
  unfold pushV pushRaw
  rw [bind_getR, key.1, e, key.2]

theorem pushV2 {acc : Acc} {k : Nat} (hk : k = 2 ∨ k = 4) {sp v1 v2 sp2 : BitVec 32} {s s2 : Cpu} {b : Bool} (hb : (s.r.hflags &&& H_SS32 != 0#32) = b)
    (h : (b = true ∧ k = 4) ∨ (2 * k ≤ sp.toNat ∧ sp.toNat < 65536))
    (hr : (pushV acc k sp v1 >>= fun sp1 => pushV acc k sp1 v2) s = .ok sp2 s2) :
    pushAll acc k s.r.ss.base (stackMask b) 0 [v1, v2] sp s = .ok sp2 s2 := by
  obtain ⟨sp1, s1, h1, h2⟩ := bind_ok.1 hr
  rw [pushV_raw acc k hk sp v1 s b hb (h.imp id fun x => ⟨by omega, x.2⟩)] at h1
  obtain ⟨e1, r1, -⟩ := pushRaw_ok h1
  have hsp := sp.isLt
  rw [pushV_raw acc k hk sp1 v2 s1 b (by rw [r1]; exact hb), r1] at h2
  · unfold pushAll
    rw [bind_of_ok h1]
    unfold pushAll
    rw [bind_of_ok h2]
    rfl
  · rcases h with h | h
    · exact .inl h
    · refine .inr ?_
      rw [e1, BitVec.toNat_sub, BitVec.toNat_ofNat]
      rcases hk with rfl | rfl <;> omega

/-- The items of a frame survive the marking of a descriptor elsewhere. -/
theorem item_marked {s s' : Cpu} {acc : Acc} {d : BitVec 64} {a adr : BitVec 32} {w : Nat} {u : Unit} (h : setAccessed acc d a s = .ok u s')
    (hf : ∀ j, j < w → 8 ≤ (adr + BitVec.ofNat 32 j - a).toNat) : load s'.mem adr w = load s.mem adr w := by
  rcases (setAccessed_ok h).2 with e | e
  · rw [e]
  · rw [e]
    apply load_congr
    intro j hj
    exact store_other _ _ _ _ _ (hf j hj)

/-- Copying parameters is pushing them, if the pushes do not overwrite them. -/
theorem copyParams_ok {acc : Acc} {k : Nat} {base obase oesp : BitVec 32} {b : Bool} (hkk : k = 2 ∨ k = 4) :
    ∀ (n : Nat) {sp sp' : BitVec 32} {s s' : Cpu}, n ≤ 32 →
    copyParams acc k base (stackMask b) obase oesp n sp s = .ok sp' s' →
    (∀ i, i < n → ∀ j, j < k → ∀ t, t < n → k ≤ (obase + ((oesp + BitVec.ofNat 32 (i * k)) &&& stackMask b) + BitVec.ofNat 32 j -
      (base + ((sp' + BitVec.ofNat 32 (k * t)) &&& stackMask b))).toNat) →
    sp' = sp - BitVec.ofNat 32 (k * n) ∧ s'.r = s.r ∧
    (∀ o w, o + w + k * n ≤ 65536 → load s'.mem (base + ((sp + BitVec.ofNat 32 o) &&& stackMask b)) w =
      load s.mem (base + ((sp + BitVec.ofNat 32 o) &&& stackMask b)) w) ∧
    (∀ i, i < n → load s'.mem (base + ((sp' + BitVec.ofNat 32 (k * i)) &&& stackMask b)) k =
      load s.mem (obase + ((oesp + BitVec.ofNat 32 (i * k)) &&& stackMask b)) k) := by
  have hk : 0 < k := by omega
  have hk16 : k ≤ 16 := by omega
  intro n
  induction n with
  | zero =>
    intro sp sp' s s' _ h _
    cases h
    refine ⟨by simp, rfl, fun _ _ _ => rfl, fun i h => absurd h (by omega)⟩
  | succ n ih =>
    intro sp sp' s s' hn h hd
    unfold copyParams at h
    rw [bind_rd] at h
    split at h
    case isFalse => cases h
    obtain ⟨sp1, s1, h1, h2⟩ := bind_ok.1 h
    obtain ⟨e1, r1, m1⟩ := pushRaw_ok h1
    have hl2 : k * (n + 1) = k * n + k := Nat.mul_succ ..
    have hkn : k * n ≤ 16 * 32 := Nat.mul_le_mul hk16 (by omega)
    obtain ⟨e2, r2, a2, b2⟩ := ih (by omega) h2 fun i hi j hj t ht => hd i (by omega) j hj t (by omega)
    have etop : sp' + BitVec.ofNat 32 (k * n) = sp1 := by rw [e2, BitVec.sub_add_cancel]
    have keep : ∀ i, i < n + 1 → load s1.mem (obase + ((oesp + BitVec.ofNat 32 (i * k)) &&& stackMask b)) k =
        load s.mem (obase + ((oesp + BitVec.ofNat 32 (i * k)) &&& stackMask b)) k := by
      intro i hi
      rw [m1]
      apply load_congr
      intro j hj
      apply store_other
      have := hd i hi j hj n (by omega)
      rw [etop] at this
      exact this
    refine ⟨?_, r2.trans r1, fun o w ho => ?_, fun i hi => ?_⟩
    · rw [e2, e1, hl2, BitVec.ofNat_add]; grind
    · have e : sp + BitVec.ofNat 32 o = sp1 + BitVec.ofNat 32 (o + k) := by
        rw [e1, BitVec.ofNat_add]; grind
      rw [e, a2 (o + k) w (by omega), m1, ← e, e1]
      exact push_above hk (by omega)
    · by_cases hi2 : i < n
      · rw [b2 i hi2, keep i hi]
      · have hie : i = n := by omega
        subst hie
        have e : sp' + BitVec.ofNat 32 (k * i) = sp1 + BitVec.ofNat 32 0 := by
          rw [etop]; simp
        rw [e, a2 0 k (by omega), m1]
        simp only [BitVec.add_zero]
        rw [load_store _ _ _ _ _ (Nat.le_refl k) (by omega), BitVec.toNat_ofNat]
        have hlt := Guest.load_lt s.mem (obase + ((oesp + BitVec.ofNat 32 (i * k)) &&& stackMask b)) k
        generalize load s.mem (obase + ((oesp + BitVec.ofNat 32 (i * k)) &&& stackMask b)) k = x at *
        rcases hkk with rfl | rfl <;> omega

theorem esp_two (b : Bool) {e sp : BitVec 32} {k : Nat} (hk : k = 2 ∨ k = 4) (hsp : sp = e - BitVec.ofNat 32 (k * 2)) {r : Regs} (hb : stack32 r = b)
    (hr : r.esp = sp) (h : b = true ∨ (2 * k ≤ e.toNat ∧ e.toNat < 65536)) : Spec.espAfter r k 2 = e := by
  unfold Spec.espAfter
  rw [hb, hr, hsp]
  have hadd : e - BitVec.ofNat 32 (k * 2) + BitVec.ofNat 32 (k * 2) = e := BitVec.sub_add_cancel ..
  rw [hadd]
  rcases h with rfl | ⟨h1, h2⟩
  · rfl
  · cases b
    · rw [if_neg (by simp)]
      have hx : (e - BitVec.ofNat 32 (k * 2)).toNat = e.toNat - k * 2 := by
        have := e.isLt
        rw [BitVec.toNat_sub, BitVec.toNat_ofNat]
        rcases hk with rfl | rfl <;> omega
      apply BitVec.eq_of_toNat_eq
      rw [append_nat, BitVec.extractLsb'_toNat, hx, BitVec.toNat_setWidth, Nat.shiftRight_eq_div_pow]
      omega
    · rw [if_pos rfl]

/-- The frame of a call that does not change the level. -/
theorem frame_same {acc : Acc} {s s' sx sy : Cpu} {k n : Nat} {sp ret a : BitVec 32} {d : BitVec 64} (hk : k = 2 ∨ k = 4)
    (hpush : pushAll acc k s.r.ss.base (stackMask (stack32 s.r)) 0 [s.r.cs.sel.setWidth 32, ret] s.r.esp s = .ok sp sx)
    (hmark : setAccessed acc d a sx = .ok () sy) (hmem : s'.mem = sy.mem) (hb : stack32 s'.r = stack32 s.r) (hss : s'.r.ss = s.r.ss)
    (hesp : s'.r.esp = sp) (hf : FrameApart s'.r k 2 a) (hroom : stack32 s.r = true ∨ (2 * k ≤ s.r.esp.toNat ∧ s.r.esp.toNat < 65536))
    (hl : ¬ level s'.r < level s.r) : CallFrame s s' k n ret := by
  obtain ⟨e, -, -, items⟩ := pushAll_ok (by omega) _ (by simp only [List.length_cons, List.length_nil]; omega) (by omega) hpush
  simp only [List.length_cons, List.length_nil] at e items
  have item : ∀ i (hi : i < 2), stackItem s' k i = ([s.r.cs.sel.setWidth 32, ret][1 - i]'(by simp only [List.length_cons, List.length_nil]; omega)).toNat % 256 ^ k := by
    intro i hi
    have := items i hi
    simp only [show 0 + 1 + 1 - 1 - i = 1 - i from by omega] at this
    rw [← this]
    unfold stackItem
    rw [hmem, item_marked hmark (hf i hi), stackAddr_eq, hb, hss, hesp]
  refine ⟨item 0 (by omega), (item 1 (by omega)).trans (sel_small _ k hk), fun x => absurd x hl, fun x => absurd x hl, fun x => absurd x hl, fun _ => ⟨hss, ?_⟩⟩
  exact esp_two (stack32 s.r) hk e hb hesp hroom

theorem writeSeg_cs_keep (sel : BitVec 16) (b l f : BitVec 32) (r : Regs) : (writeSeg .cs sel b l f r).ss = r.ss ∧
    (writeSeg .cs sel b l f r).cr0 = r.cr0 ∧ (writeSeg .cs sel b l f r).eflags = r.eflags ∧ (writeSeg .cs sel b l f r).arith = r.arith := by
  obtain ⟨q1, q2, q3, q4, q5, q6⟩ := wcs_core sel b l f r
  exact ⟨q5, q2, q1, rfl⟩

/-- Where a call ends. -/
theorem callEnd_ok {acc : Acc} {sel : BitVec 16} {eip a sp : BitVec 32} {d : BitVec 64} {s s' : Cpu}
    (h : (do setAccessed acc d a; loadDesc .cs sel d; modR fun r => { r with esp := sp, eip := eip } : M Unit) s = .ok () s') :
    ∃ sy, setAccessed acc d a s = .ok () sy ∧ s'.mem = sy.mem ∧ s'.r.ss = s.r.ss ∧ s'.r.esp = sp ∧ s'.r.cr0 = s.r.cr0 ∧ s'.r.eflags = s.r.eflags ∧
      s'.r.arith = s.r.arith := by
  obtain ⟨u, sy, h1, h2⟩ := bind_ok.1 h
  rw [bind_loadDesc] at h2
  have h3 := modR_ok.1 h2
  have hr := (setAccessed_ok h1).1
  obtain ⟨w1, w2, w3, w4⟩ := writeSeg_cs_keep sel (descBase d) (descLimit d) (descFlags d) sy.r
  subst h3
  refine ⟨sy, h1, rfl, w1.trans (by rw [hr]), rfl, w2.trans (by rw [hr]), w3.trans (by rw [hr]), w4.trans (by rw [hr])⟩

theorem mode_of {r r' : Regs} (h : mode r = .prot) (h1 : r'.cr0 = r.cr0) (h2 : r'.eflags = r.eflags) : mode r' = .prot := by
  unfold mode at h ⊢
  rw [h1, h2]; exact h

theorem stack32_of {r r' : Regs} (h1 : r'.cr0 = r.cr0) (h2 : r'.eflags = r.eflags) (h3 : r'.ss = r.ss) : stack32 r' = stack32 r := by
  unfold stack32 mode
  rw [h1, h2, h3]

theorem callPush_frame {acc : Acc} {sel : BitVec 16} {call ret a : BitVec 32} {k : Nat} {d : BitVec 64} {s s' : Cpu} (ha : AgreeCore s.r)
    (hk : k = 2 ∨ k = 4) (h : callPush acc sel call k ret s.r a d s = .ok () s') (hf : FrameApart s'.r k 2 a) (hroom : Roomy s.r k)
    (hl : ¬ level s'.r < level s.r) : CallFrame s s' k 0 ret := by
  unfold callPush at h
  obtain ⟨sp1, s1, h1, h2⟩ := bind_ok.1 h
  obtain ⟨sp2, s2, h3, h4⟩ := bind_ok.1 h2
  have hp := pushV2 hk (ss32_eq ha) hroom (show (pushV acc k s.r.esp (s.r.cs.sel.setWidth 32) >>= fun sp1 => pushV acc k sp1 ret) s = .ok sp2 s2 by
    rw [bind_of_ok h1]; exact h3)
  obtain ⟨-, r2, -, -⟩ := pushAll_ok (by omega) _ (by simp only [List.length_cons, List.length_nil]; omega) (by omega) hp
  obtain ⟨sy, g1, g2, g3, g4, g5, g6, -⟩ := callEnd_ok h4
  rw [r2] at g3 g5 g6
  exact frame_same hk hp g1 g2 (stack32_of g5 g6 g3) g3 g4 hf (hroom.imp (·.1) id) hl

/-- A far call in protected mode, inverted. -/
theorem lcall_inv {acc : Acc} {sel : BitVec 16} {call ret : BitVec 32} {k : Nat} {s s' : Cpu} (ha : AgreeCore s.r) (hm : mode s.r = .prot)
    (h : instr acc (.farCall sel k call ret) s = .ok () s') :
    (if dS (Spec.descAt s sel) then callDirect acc sel call k ret s.r (Spec.descAddr s.r sel) (Spec.descAt s sel)
      else callGate acc sel ret s.r (Spec.descAt s sel)) s = .ok () s' := by
  change (if peNotVm s.r = true then _ else _ : M Unit) s = _ at h
  rw [peNotVm_prot (prot_of ha hm), if_pos rfl, lcallPe_eq, bind_getR, bind_check] at h
  split at h
  case isTrue => cases h
  rw [bind_readDesc] at h
  split at h
  case isTrue => cases h
  split at h
  case isFalse => cases h
  exact h
end Verif.Seg
