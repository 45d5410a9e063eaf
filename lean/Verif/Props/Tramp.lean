import Verif.Lemmas.Tramp
import Verif.Props.CodeLinks
/-
C91: trampoline_call runs the original of a hooked function once, and returns at the return address.
-/
namespace Verif.Tc
open Spec (Leads dest NoAlias CallOk CallsOk Fair FairRun noTramp NoTramp opsOf opsRun roundOps setTramp clearTramp first start)

namespace TrampP

theorem tramp_eq (d : Decoder) (s : St) (ret : BitVec 32) (f : Option (List Op × BitVec 32)) (es : List Ev) :
    trampoline d s ret f es = (start s ret).run d (first s f :: es) := by
  cases f with
  | none => rfl
  | some p => rfl

/-- Modes are built from the constant bits only. -/
def Plain (s : St) : Prop := s.flags &&& (HFLG_CONST ||| EFLAGS_CONST) = s.flags

theorem plain_mode (h e : BitVec 32) : modeOf h e &&& (HFLG_CONST ||| EFLAGS_CONST) = modeOf h e := by
  unfold modeOf HFLG_CONST EFLAGS_CONST; bits32

theorem set_mode {f : BitVec 32} (h : f &&& (HFLG_CONST ||| EFLAGS_CONST) = f) : modeOf (f ||| TRAMP) f = f ||| TRAMP := by
  have e : modeOf (f ||| TRAMP) f = (f &&& (HFLG_CONST ||| EFLAGS_CONST)) ||| TRAMP := by
    unfold modeOf HFLG_CONST EFLAGS_CONST TRAMP; bits32
  rw [e, h]
theorem clear_mode {f : BitVec 32} (h : f &&& (HFLG_CONST ||| EFLAGS_CONST) = f) : modeOf (f &&& ~~~TRAMP) f = f &&& ~~~TRAMP := by
  have e : modeOf (f &&& ~~~TRAMP) f = (f &&& (HFLG_CONST ||| EFLAGS_CONST)) &&& ~~~TRAMP := by
    unfold modeOf HFLG_CONST EFLAGS_CONST TRAMP; bits32
  rw [e, h]

theorem untramp_step {d : Decoder} {s : St} (h : Plain s) : (step d s (clearTramp s)).2 = untramp s := by
  show ({ s with csBase := s.csBase, flags := modeOf (s.flags &&& ~~~TRAMP) s.flags } : St) = { s with flags := s.flags &&& ~~~TRAMP }
  rw [clear_mode h]
theorem tramp_step {d : Decoder} {s : St} (h : Plain s) (ret : BitVec 32) : (step d s (setTramp s)).2 = (start s ret).s := by
  show ({ s with csBase := s.csBase, flags := modeOf (s.flags ||| TRAMP) s.flags } : St) = { s with flags := s.flags ||| TRAMP }
  rw [set_mode h]

theorem main_flags (d : Decoder) (s : St) (v : BitVec 32) (link : Bool) : (mainLoop d s v link).2.flags = s.flags := by
  unfold mainLoop
  dsimp only
  split
  · cases link <;> rfl
  · split
    · split <;> split <;> rfl
    · split <;> rfl

/-- Only mode switches change the mode. -/
theorem flags_step (d : Decoder) (s : St) (o : Op) : (step d s o).2.flags = s.flags ∨ ∃ b h e, o = .setMode b h e ∧ (step d s o).2.flags = modeOf h e := by
  cases o with
  | setMode b hf e => exact .inr ⟨b, hf, e, rfl, rfl⟩
  | run v link => exact .inl (main_flags d s v link)
  | jump v => unfold step; dsimp only; split <;> exact .inl rfl
  | ret v =>
    unfold step; dsimp only
    have e := (pop_cache { s with now := v }).2.2
    split <;> exact .inl e
  | write p bs => exact .inl (write_fades s p bs).2
  | writeCross v bs => exact .inl (writeCross_fades s v bs).2
  | hookAdd a k => exact .inl (flags_invalidate _ _ _)
  | hookRemove a =>
    left
    show (hookRemove s a).2.flags = _
    unfold hookRemove
    split
    · rfl
    · exact flags_invalidateHook _ _
  | _ => exact .inl rfl

theorem plain_step {d : Decoder} {s : St} (h : Plain s) (o : Op) : Plain (step d s o).2 := by
  unfold Plain
  rcases flags_step d s o with e | ⟨b, hf, e, _, e'⟩
  · rw [e]; exact h
  · rw [e']; exact plain_mode hf e
theorem plain_hist {d : Decoder} (os : List Op) {s : St} (h : Plain s) : Plain (hist d s os) := by
  induction os generalizing s with
  | nil => exact h
  | cons o os ih => exact ih (plain_step h o)
theorem plain_reset (mem : BitVec 32 → BitVec 8) (map : BitVec 20 → BitVec 20) : Plain (reset mem map) := by
  show (0#32) &&& _ = 0#32; rfl

theorem acts_hist (d : Decoder) (os : List Op) (s : St) : acts d s os = hist d s (os.filter Op.inner) := by
  induction os generalizing s with
  | nil => rfl
  | cons o os ih =>
    unfold acts
    rw [List.filter_cons]
    split
    · rename_i h; exact ih _
    · rename_i h; exact ih _

theorem goesOn_iff (L : Loop) (v : BitVec 32) : goesOn L v = true ↔ ¬ v - L.s.csBase = L.ret := by
  unfold goesOn; simp

theorem round_hist {d : Decoder} {L : Loop} (h : Plain L.s) (v : BitVec 32) (link : Bool) :
    (round d L v link).s = hist d L.s (roundOps d L v link) := by
  unfold round roundOps
  by_cases hv : v - L.s.csBase = L.ret
  · rw [if_pos hv, if_neg (by rw [goesOn_iff]; exact fun h => h hv)]; rfl
  · rw [if_neg hv, if_pos ((goesOn_iff L v).2 hv)]
    have hp : Plain (mainLoop d L.s v link).2 := plain_step h (.run v link)
    exact (untramp_step hp).symm

/-- An event of the trampoline is a sequence of events of the code cache. -/
theorem step_hist {d : Decoder} {L : Loop} (h : Plain L.s) (e : Ev) : (L.step d e).s = hist d L.s (opsOf d L e) := by
  unfold Loop.step opsOf
  dsimp only
  cases hd : L.done with
  | true => rfl
  | false =>
    simp only [Bool.false_eq_true, if_false]
    cases e with
    | act o => exact acts_hist d [o] L.s
    | next v link => exact round_hist h v link
    | fault v os hh =>
      dsimp only
      by_cases hv : v - L.s.csBase = L.ret
      · rw [if_pos hv, if_neg (by rw [goesOn_iff]; exact fun h => h hv)]; rfl
      · rw [if_neg hv, if_pos ((goesOn_iff L v).2 hv), List.cons_append]
        show _ = hist d (step d L.s (clearTramp L.s)).2 _
        rw [untramp_step h, hist_append, ← acts_hist]
        have hp : Plain (acts d (untramp L.s) os) := by
          rw [acts_hist, ← untramp_step (d := d) h]
          exact plain_hist _ (plain_step h _)
        have hq : Plain (mainLoop d (acts d (untramp L.s) os) hh false).2 := plain_step hp (.run hh false)
        exact (untramp_step hq).symm
    | jump v link =>
      dsimp only
      have hs : (step d L.s (.jump v)).2 = { L.s with now := v, cur := jumpTo L.s v } := by
        unfold step; dsimp only; cases jumpTo L.s v <;> rfl
      cases hj : jumpTo L.s v with
      | some t => dsimp only; show _ = (step d L.s (.jump v)).2; rw [hs, hj]
      | none =>
        dsimp only
        refine (round_hist (by exact h) v link).trans ?_
        show _ = hist d (step d L.s (.jump v)).2 _
        rw [hs, hj]
    | ret v link =>
      dsimp only
      have hp := (pop_cache { L.s with now := v }).2.2
      have hs : (step d L.s (.ret v)).2 = { (rsbPop { L.s with now := v }).2 with cur := (rsbPop { L.s with now := v }).1.map (·.1) } := by
        unfold step; dsimp only; cases (rsbPop { L.s with now := v }).1 <;> rfl
      generalize rsbPop { L.s with now := v } = r at hp hs
      obtain ⟨r1, r2⟩ := r
      cases r1 with
      | some p => exact hs.symm
      | none =>
        dsimp only at hp ⊢
        refine (round_hist (by show r2.flags &&& _ = r2.flags; rw [hp]; exact h) v link).trans ?_
        show _ = hist d (step d L.s (.ret v)).2 _
        rw [hs]; rfl

theorem run_hist {d : Decoder} (es : List Ev) {L : Loop} (h : Plain L.s) : (L.run d es).s = hist d L.s (opsRun d L es) := by
  induction es generalizing L with
  | nil => rfl
  | cons e es ih =>
    have hs := step_hist (d := d) h e
    show ((L.step d e).run d es).s = hist d L.s (opsOf d L e ++ opsRun d (L.step d e) es)
    rw [ih (by rw [hs]; exact plain_hist _ h), hist_append, ← hs]

/-- The flag stays clear. -/
theorem clear_of {f : BitVec 32} : (f &&& ~~~TRAMP) &&& TRAMP = 0#32 := by unfold TRAMP; bits32
theorem mode_of {h e : BitVec 32} (hh : h &&& TRAMP = 0#32) : modeOf h e &&& TRAMP = 0#32 := by
  have e : modeOf h e &&& TRAMP = h &&& TRAMP := by unfold modeOf HFLG_CONST EFLAGS_CONST TRAMP; bits32
  rw [e, hh]
theorem off_step {d : Decoder} {s : St} (h : s.flags &&& TRAMP = 0#32) {o : Op} (ho : noTramp o) : (step d s o).2.flags &&& TRAMP = 0#32 := by
  rcases flags_step d s o with e | ⟨b, hf, e, rfl, e'⟩
  · rw [e]; exact h
  · rw [e']; exact mode_of ho
theorem off_hist {d : Decoder} (os : List Op) {s : St} (h : s.flags &&& TRAMP = 0#32) (ho : ∀ o ∈ os, noTramp o) : (hist d s os).flags &&& TRAMP = 0#32 := by
  induction os generalizing s with
  | nil => exact h
  | cons o os ih => exact ih (off_step h (ho o (List.mem_cons_self ..))) (fun x hx => ho x (List.mem_cons_of_mem _ hx))

theorem no_round {d : Decoder} {L : Loop} {v : BitVec 32} {link : Bool} : ∀ o ∈ roundOps d L v link, noTramp o ∨ ∃ s, o = clearTramp s := by
  intro o ho
  unfold roundOps at ho
  split at ho
  · simp only [List.mem_singleton] at ho; subst ho; exact .inl trivial
  · simp only [List.mem_cons, List.not_mem_nil, or_false] at ho
    rcases ho with rfl | rfl
    · exact .inl trivial
    · exact .inr ⟨_, rfl⟩
theorem noTramp_clear (s : St) : noTramp (clearTramp s) := clear_of
theorem no_ops {d : Decoder} {L : Loop} {e : Ev} (h : NoTramp e) : ∀ o ∈ opsOf d L e, noTramp o := by
  have hr : ∀ (L : Loop) (v : BitVec 32) (link : Bool), ∀ o ∈ roundOps d L v link, noTramp o := by
    intro L v link o ho
    rcases no_round o ho with h | ⟨s, rfl⟩
    · exact h
    · exact noTramp_clear s
  intro o ho
  unfold opsOf at ho
  split at ho
  · cases ho
  · cases e with
    | act p => dsimp only at ho; rw [List.mem_filter] at ho; obtain ⟨h1, _⟩ := ho; rw [List.mem_singleton] at h1; subst h1; exact h
    | next v link => exact hr L v link o ho
    | fault v os hh =>
      dsimp only at ho
      split at ho
      · rw [List.mem_singleton] at ho; subst ho; exact trivial
      · simp only [List.cons_append, List.mem_cons, List.mem_append, List.mem_filter, List.not_mem_nil, or_false] at ho
        rcases ho with rfl | ⟨h1, _⟩ | rfl | rfl
        · exact noTramp_clear _
        · exact h o h1
        · exact trivial
        · exact noTramp_clear _
    | jump v link =>
      dsimp only at ho
      split at ho
      · rw [List.mem_singleton] at ho; subst ho; exact trivial
      · rw [List.mem_cons] at ho
        rcases ho with rfl | ho
        · exact trivial
        · exact hr _ _ _ o ho
    | ret v link =>
      dsimp only at ho
      split at ho
      · rw [List.mem_singleton] at ho; subst ho; exact trivial
      · rw [List.mem_cons] at ho
        rcases ho with rfl | ho
        · exact trivial
        · exact hr _ _ _ o ho
theorem off_run {d : Decoder} (es : List Ev) {L : Loop} (hp : Plain L.s) (h : L.s.flags &&& TRAMP = 0#32) (he : ∀ e ∈ es, NoTramp e) :
    (L.run d es).s.flags &&& TRAMP = 0#32 := by
  induction es generalizing L with
  | nil => exact h
  | cons e es ih =>
    have hs := step_hist (d := d) hp e
    refine ih (L := L.step d e) (by rw [hs]; exact plain_hist _ hp) ?_ (fun x hx => he x (List.mem_cons_of_mem _ hx))
    rw [hs]; exact off_hist _ h (no_ops (he e (List.mem_cons_self ..)))

/-- The first round clears it. -/
theorem off_first {d : Decoder} {s : St} {ret : BitVec 32} {f : Option (List Op × BitVec 32)} (hn : s.now - s.csBase ≠ ret) :
    ((start s ret).step d (first s f)).s.flags &&& TRAMP = 0#32 := by
  have hg : goesOn (start s ret) s.now = true := (goesOn_iff _ _).2 hn
  cases f with
  | none =>
    show (round d (start s ret) s.now false).s.flags &&& _ = _
    unfold round
    rw [hg]
    exact clear_of
  | some p =>
    show (if goesOn (start s ret) s.now = true then exec d { (start s ret) with s := acts d (untramp (start s ret).s) p.1 } p.2 false
      else { (start s ret) with s := { (start s ret).s with now := s.now }, done := true }).s.flags &&& _ = _
    rw [hg]
    exact clear_of

theorem step_ret (d : Decoder) (L : Loop) (e : Ev) : (L.step d e).ret = L.ret := by
  have hr : ∀ (L : Loop) (v : BitVec 32) (link : Bool), (round d L v link).ret = L.ret := by
    intro L v link; unfold round; split <;> rfl
  unfold Loop.step
  dsimp only
  split
  · rfl
  · cases e with
    | act o => rfl
    | next v link => exact hr L v link
    | fault v os hh => dsimp only; split <;> rfl
    | jump v link =>
      dsimp only
      split
      · rfl
      · exact hr _ v link
    | ret v link =>
      dsimp only
      split
      · rfl
      · exact hr _ v link

theorem run_ret (d : Decoder) (es : List Ev) (L : Loop) : (L.run d es).ret = L.ret := by
  induction es generalizing L with
  | nil => rfl
  | cons e es ih => exact (ih _).trans (step_ret d L e)

theorem all_append {d : Decoder} {P : St → Op → Prop} (as : List Op) {bs : List Op} {s : St} (h : All d P s as) (g : All d P (hist d s as) bs) :
    All d P s (as ++ bs) := by
  induction as generalizing s with
  | nil => exact g
  | cons a as ih => exact ⟨h.1, ih h.2 g⟩

/-- With the flag set no hook block is executed. -/
theorem run_unhooked {d : Decoder} {s : St} (hk : HookOk s) (h : ¬ s.flags &&& 0x40#32 = 0#32) (v : BitVec 32) (link : Bool) :
    (mainLoop d s v link).1.hook = none := by
  rcases run_exec d s v link with ⟨u, g1, g2⟩ | ⟨_, g2⟩
  · have e : (mainLoop d s v link).1 = u := by have : some (mainLoop d s v link).1 = some u := g2; exact Option.some.inj this
    rw [e, (hk u (search_in g1).1).1, (search_in g1).2.2.2, if_neg h]
  · have e : (mainLoop d s v link).1 = (translate d s v).1 := by have : some (mainLoop d s v link).1 = some _ := g2; exact Option.some.inj this
    rw [e]
    unfold translate
    rw [if_neg h]

theorem done_inv {d : Decoder} (es : List Ev) {L : Loop} (h : L.done = true → L.s.now - L.s.csBase = L.ret) :
    (L.run d es).done = true → (L.run d es).s.now - (L.run d es).s.csBase = L.ret := by
  induction es generalizing L with
  | nil => exact h
  | cons e es ih =>
    have hr : (L.step d e).ret = L.ret := step_ret d L e
    have := ih (L := L.step d e) ?_
    · rw [hr] at this; exact this
    · intro hd
      rw [hr]
      cases hx : L.done with
      | true =>
        have : L.step d e = L := by unfold Loop.step; rw [hx]; rfl
        rw [this]; exact h hx
      | false => exact (step_done hx hd).1

end TrampP

open TrampP

/-- **C91**: whatever happens meanwhile, trampoline_call returns only when the instruction pointer is `ret`. -/
theorem C91_only_there (d : Decoder) (s : St) (ret : BitVec 32) (f : Option (List Op × BitVec 32)) (es : List Ev)
    (hd : (trampoline d s ret f es).done = true) :
    (trampoline d s ret f es).s.now - (trampoline d s ret f es).s.csBase = ret := by
  rw [tramp_eq] at hd ⊢
  exact done_inv _ (fun h => by cases h) hd

/-- **C91** (partial): if no link between blocks and no predicted return leads to `ret`, trampoline_call returns as soon as
the guest gets there, without executing the code there; the guest may take faults and interrupts and call other functions and hooks meanwhile. -/
theorem C91_returns_partial (d : Decoder) (mem : BitVec 32 → BitVec 8) (map : BitVec 20 → BitVec 20) (os : List Op) (ret : BitVec 32)
    (hl : ¬ Leads (hist d (reset mem map) os) ret) (f : Option (List Op × BitVec 32)) (es : List Ev)
    (hf : FairRun d (start (hist d (reset mem map) os) ret) (first (hist d (reset mem map) os) f :: es))
    (hd : (trampoline d (hist d (reset mem map) os) ret f es).done = false) (e : Ev) (v : BitVec 32) (hv : dest e = some v)
    (hr : v - (trampoline d (hist d (reset mem map) os) ret f es).s.csBase = ret) :
    ((trampoline d (hist d (reset mem map) os) ret f es).step d e).done = true ∧
    ((trampoline d (hist d (reset mem map) os) ret f es).step d e).log = (trampoline d (hist d (reset mem map) os) ret f es).log ∧
    ((trampoline d (hist d (reset mem map) os) ret f es).step d e).s.now = v := by
  have hm : (hist d (reset mem map) os).flags &&& INVALID = 0#32 := flags_inv_hist os (show (0#32) &&& INVALID = 0#32 by decide)
  generalize hist d (reset mem map) os = s at *
  rw [tramp_eq] at *
  have h0 : Clear ret (start s ret).s := by
    refine ⟨hl, ?_⟩
    show (s.flags ||| TRAMP) &&& INVALID = 0#32
    have e : (s.flags ||| TRAMP) &&& INVALID = s.flags &&& INVALID := by generalize s.flags = f; unfold TRAMP INVALID; bits32
    rw [e, hm]
  have h1 := clear_run (L := start s ret) _ h0 hf
  have h2 : ((start s ret).run d (first s f :: es)).ret = ret := h1.2
  refine step_ends ?_ hd hv (by rw [h2]; exact hr)
  rw [h2]; exact h1.1

/-- **C91** (partial): if fetching the first instruction does not fault, the first block executed is the code at the address of the hooked function,
translated as it is now and without its hook. -/
theorem C91_original_partial (d : Decoder) (hl : LenOk d) (hd : Local d) (mem : BitVec 32 → BitVec 8) (map : BitVec 20 → BitVec 20) (os : List Op)
    (hs : All d (fun s o => OkMap s o ∧ SaneHook s o) (reset mem map) os)
    (ret : BitVec 32) (hn : (hist d (reset mem map) os).now - (hist d (reset mem map) os).csBase ≠ ret)
    (ha : NoAlias (start (hist d (reset mem map) os) ret).s (hist d (reset mem map) os).now) :
    ∃ t, (trampoline d (hist d (reset mem map) os) ret none []).log = [t] ∧ t.hook = none ∧
      t.pc = phys (hist d (reset mem map) os).map (hist d (reset mem map) os).now ∧
      (NoBad t.body → ∃ c, translateLoop d ((hist d (reset mem map) os).flags ||| TRAMP) (hist d (reset mem map) os).mem
        (hist d (reset mem map) os).map 4096 t.pc (hist d (reset mem map) os).now = (t.body, t.size, c)) := by
  have hp : Plain (hist d (reset mem map) os) := plain_hist os (plain_reset mem map)
  have e1 : hist d (reset mem map) (os ++ [setTramp (hist d (reset mem map) os)]) = (start (hist d (reset mem map) os) ret).s := by
    rw [hist_append]; exact tramp_step hp ret
  have hall : All d (fun s o => OkMap s o ∧ SaneHook s o) (reset mem map) (os ++ [setTramp (hist d (reset mem map) os)]) :=
    all_append os hs ⟨⟨⟨trivial, trivial, trivial⟩, trivial⟩, trivial⟩
  have fr := C47_fresh_partial d hl hd mem map _ hall (hist d (reset mem map) os).now (.run (hist d (reset mem map) os).now false) (.inr ⟨false, rfl⟩)
  have key := C47_key_partial d hl mem map _ (hall.imp fun _ _ h => ⟨h.1.1, h.1.2.1⟩) (.run (hist d (reset mem map) os).now false)
  rw [e1] at fr key
  have hk : HookOk (start (hist d (reset mem map) os) ret).s := by
    rw [← e1]
    exact hook_hist hl _ _ (inv_reset mem map) (hook_reset mem map) (hall.imp fun _ _ h => ⟨h.1.1, h.2⟩)
  have hx : ¬ (start (hist d (reset mem map) os) ret).s.flags &&& 0x40#32 = 0#32 := by
    show ¬ ((hist d (reset mem map) os).flags ||| TRAMP) &&& 0x40#32 = 0#32
    have e : ((hist d (reset mem map) os).flags ||| TRAMP) &&& 0x40#32 = 0x40#32 := by
      generalize (hist d (reset mem map) os).flags = f; unfold TRAMP; bits32
    rw [e]; decide
  clear hall e1 hp hs
  generalize hist d (reset mem map) os = s at *
  refine ⟨(mainLoop d (start s ret).s s.now false).1, ?_, ?_, ?_, ?_⟩
  · show (round d (start s ret) s.now false).log = _
    unfold round
    rw [(goesOn_iff _ _).2 hn]; rfl
  · exact run_unhooked hk hx _ _
  · exact (key _ rfl).2.2.1 s.now false rfl
  · intro hb
    have := fr ha _ rfl hb
    unfold translate at this
    rw [if_neg hx] at this
    dsimp only at this
    have hpc : (mainLoop d (start s ret).s s.now false).1.pc = _ := (key _ rfl).2.2.1 s.now false rfl
    rw [hpc]
    generalize (mainLoop d (start s ret).s s.now false).1 = t at this
    have h1 := congrArg Tc.body this
    have h2 := congrArg Tc.size this
    dsimp only at h1 h2
    rw [h1, h2]
    exact ⟨_, rfl⟩


namespace TrampP
/-- The function at 0x1000 is hooked, and the guest gets there. -/
def hooked : List Op := [.hookAdd 0x1000#32 7, .run 0x1000#32 false]
/-- The same after a call from 0x3000. -/
def called : List Op := [.hookAdd 0x1000#32 7, .run 0x3000#32 false, .call 1 0x3001#32, .run 0x1000#32 false]

theorem run_ok (s : St) (v : BitVec 32) (l : Bool) (hn : s.num ≠ 32768) (hs : search s (phys s.map v) = none) :
    OkMap s (.run v l) ∧ SaneHook s (.run v l) :=
  ⟨⟨hn, trivial, fun t ht => by rw [hs] at ht; cases ht⟩, trivial⟩
theorem hooked_ok : All tiny (fun s o => OkMap s o ∧ SaneHook s o) (reset code ident) hooked :=
  ⟨⟨⟨trivial, trivial, trivial⟩, fun t ht => by cases ht⟩, run_ok _ _ _ (by decide) (by decide +kernel), trivial⟩
/-- The block of the caller. -/
def caller : Tc := ⟨0, 0xFFFF0000#32, 0x3000#32, 0x3000#32, 0#32, 1, [.ok [0xC3#8]], none⟩
/-- The original of the function. -/
def orig (id : Nat) : Tc := ⟨id, 0xFFFF0000#32, 0x1000#32, 0x1000#32, 0x40#32, 2, [.ok [0x90#8], .ok [0xC3#8]], none⟩
theorem called_ok : All tiny (fun s o => OkMap s o ∧ SaneHook s o) (reset code ident) called := by
  refine ⟨⟨⟨trivial, trivial, trivial⟩, fun t ht => by cases ht⟩, run_ok _ _ _ (by decide) (by decide +kernel), ?_,
    run_ok _ _ _ (by decide +kernel) (by decide +kernel), trivial⟩
  have hc : (hist tiny (reset code ident) [.hookAdd 0x1000#32 7, .run 0x3000#32 false]).cur = some caller := by decide +kernel
  refine ⟨⟨trivial, ?_, ?_⟩, trivial⟩
  · intro t ht
    have e : caller = t := Option.some.inj (hc.symm.trans ht)
    subst e
    refine ⟨?_, by decide, by decide⟩
    show caller ∈ (hist tiny (reset code ident) [.hookAdd 0x1000#32 7, .run 0x3000#32 false]).cache (hash caller.pc)
    decide +kernel
  · intro t ht
    have e : caller = t := Option.some.inj (hc.symm.trans ht)
    subst e
    show caller.pc = phys ident caller.virt
    decide

theorem nothing (s : St) (ret : BitVec 32) (h1 : ∀ i, (s.jmp i).flags = INVALID) (h2 : ∀ i, (s.rsb i).valid = false) : ¬ Leads s ret := by
  rintro (⟨i, h, _⟩ | ⟨i, t, h, _⟩)
  · rw [h1] at h; exact absurd h (by decide)
  · rw [h2] at h; cases h

theorem hooked_clear (ret : BitVec 32) : ¬ Leads (hist tiny (reset code ident) hooked) ret := by
  refine nothing _ _ (fun i => ?_) (fun i => ?_)
  · revert i; decide +kernel
  · revert i; decide +kernel

/-- What the trampoline has executed, and whether it has returned. -/
def shows (L : Loop) : List Tc × Bool := (L.log, L.done)
end TrampP

/-- The function is run by a trampoline: it returns to 0x3000 with a RET the cpu did not predict. -/
example : All tiny (fun s o => OkMap s o ∧ SaneHook s o) (reset code ident) hooked ∧
    ¬ Leads (hist tiny (reset code ident) hooked) 0x13000#32 ∧
    FairRun tiny (start (hist tiny (reset code ident) hooked) 0x13000#32) [first (hist tiny (reset code ident) hooked) none, .ret 0x3000#32 false] ∧
    shows (trampoline tiny (hist tiny (reset code ident) hooked) 0x13000#32 none []) = ([orig 1], false) ∧
    shows (trampoline tiny (hist tiny (reset code ident) hooked) 0x13000#32 none [.ret 0x3000#32 false]) = ([orig 1], true) := by
  refine ⟨hooked_ok, hooked_clear _, ⟨?_, ?_, trivial⟩, by decide +kernel, by decide +kernel⟩
  · intro t ht
    exact absurd ht (by rw [show search _ _ = none by decide +kernel]; simp)
  · intro t ht
    exact absurd ht (by rw [show search _ _ = none by decide +kernel]; simp)

/-- **C91** (partial): after the first round hooks are called again: the same function, called again meanwhile, runs its hook,
and so do all others. -/
theorem C91_later_hooks_partial (d : Decoder) (hl : LenOk d) (mem : BitVec 32 → BitVec 8) (map : BitVec 20 → BitVec 20) (os : List Op) (ret : BitVec 32)
    (hn : (hist d (reset mem map) os).now - (hist d (reset mem map) os).csBase ≠ ret)
    (f : Option (List Op × BitVec 32)) (es : List Ev) (he : ∀ e ∈ es, NoTramp e)
    (hs : All d (fun s o => OkMap s o ∧ SaneHook s o) (reset mem map) (os ++ setTramp (hist d (reset mem map) os) ::
      opsRun d (start (hist d (reset mem map) os) ret) (first (hist d (reset mem map) os) f :: es)))
    (v : BitVec 32) (link : Bool) (ha : NoAlias (trampoline d (hist d (reset mem map) os) ret f es).s v)
    (hd : (trampoline d (hist d (reset mem map) os) ret f es).done = false)
    (hv : v - (trampoline d (hist d (reset mem map) os) ret f es).s.csBase ≠ ret) :
    ∃ t, ((trampoline d (hist d (reset mem map) os) ret f es).step d (.next v link)).log =
        t :: (trampoline d (hist d (reset mem map) os) ret f es).log ∧
      t.hook = (trampoline d (hist d (reset mem map) os) ret f es).s.hooks v := by
  have hp : Plain (hist d (reset mem map) os) := plain_hist os (plain_reset mem map)
  rw [tramp_eq] at *
  have hps : Plain (start (hist d (reset mem map) os) ret).s := by
    rw [← tramp_step (d := d) hp ret]; exact plain_step hp _
  have e1 : hist d (reset mem map) (os ++ setTramp (hist d (reset mem map) os) ::
      opsRun d (start (hist d (reset mem map) os) ret) (first (hist d (reset mem map) os) f :: es)) =
      ((start (hist d (reset mem map) os) ret).run d (first (hist d (reset mem map) os) f :: es)).s := by
    rw [run_hist _ hps, hist_append]
    show hist d (step d _ _).2 _ = _
    rw [tramp_step hp ret]
  have hk : HookOk ((start (hist d (reset mem map) os) ret).run d (first (hist d (reset mem map) os) f :: es)).s := by
    rw [← e1]
    exact hook_hist hl _ _ (inv_reset mem map) (hook_reset mem map) (hs.imp fun _ _ h => ⟨h.1.1, h.2⟩)
  clear e1 hs
  generalize hist d (reset mem map) os = s at *
  have hr : ((start s ret).run d (first s f :: es)).ret = ret := run_ret d _ (start s ret)
  have hx : ((start s ret).run d (first s f :: es)).s.flags &&& TRAMP = 0#32 := by
    have hps' : Plain ((start s ret).step d (first s f)).s := by rw [step_hist hps]; exact plain_hist _ hps
    exact off_run es hps' (off_first hn) he
  generalize (start s ret).run d (first s f :: es) = L at *
  refine ⟨(mainLoop d L.s v link).1, ?_, ?_⟩
  · unfold Loop.step
    rw [hd]
    show (round d L v link).log = _
    unfold round
    rw [(goesOn_iff _ _).2 (by rw [hr]; exact hv)]; rfl
  · rcases run_exec d L.s v link with ⟨u, g1, g2⟩ | ⟨_, g2⟩
    · have e : (mainLoop d L.s v link).1 = u := by have : some (mainLoop d L.s v link).1 = some u := g2; exact Option.some.inj this
      rw [e, (hk u (search_in g1).1).1, (search_in g1).2.2.2, if_pos (show L.s.flags &&& 0x40#32 = 0#32 from hx), ha u g1]
    · have e : (mainLoop d L.s v link).1 = (translate d L.s v).1 := by
        have : some (mainLoop d L.s v link).1 = some _ := g2; exact Option.some.inj this
      rw [e]
      unfold translate
      rw [if_pos (show L.s.flags &&& 0x40#32 = 0#32 from hx)]
      cases L.s.hooks v <;> rfl

/-- The function calls itself: its hook is called. -/
example : All tiny (fun s o => OkMap s o ∧ SaneHook s o) (reset code ident) (hooked ++ setTramp (hist tiny (reset code ident) hooked) ::
      opsRun tiny (start (hist tiny (reset code ident) hooked) 0x13000#32) [first (hist tiny (reset code ident) hooked) none]) ∧
    ((trampoline tiny (hist tiny (reset code ident) hooked) 0x13000#32 none []).step tiny (.next 0x1000#32 false)).log.map (·.hook) =
      [some 7, none] := by
  refine ⟨?_, by decide +kernel⟩
  rw [show hooked ++ setTramp (hist tiny (reset code ident) hooked) ::
      opsRun tiny (start (hist tiny (reset code ident) hooked) 0x13000#32) [first (hist tiny (reset code ident) hooked) none] =
      hooked ++ [setTramp (hist tiny (reset code ident) hooked), .run 0x1000#32 false,
        clearTramp (mainLoop tiny (start (hist tiny (reset code ident) hooked) 0x13000#32).s 0x1000#32 false).2] from rfl]
  exact all_append _ hooked_ok ⟨⟨⟨trivial, trivial, trivial⟩, trivial⟩, run_ok _ _ _ (by decide +kernel) (by decide +kernel),
    ⟨⟨trivial, trivial, trivial⟩, trivial⟩, trivial⟩

/-- **C91** is violated in the normal case: the CALL of the caller is what the RET of the function is predicted to return to, so the
RET jumps into the block of the caller; trampoline_call goes on executing the caller. -/
theorem C91_overrun_violation : ∃ (os : List Op) (ret v : BitVec 32) (es : List Ev) (t : Tc),
    All tiny (fun s o => OkMap s o ∧ SaneHook s o) (reset code ident) os ∧
    v - (hist tiny (reset code ident) os).csBase = ret ∧
    (trampoline tiny (hist tiny (reset code ident) os) ret none es).done = false ∧
    ((trampoline tiny (hist tiny (reset code ident) os) ret none es).step tiny (.ret v false)).done = false ∧
    ((trampoline tiny (hist tiny (reset code ident) os) ret none es).step tiny (.ret v false)).log =
      t :: (trampoline tiny (hist tiny (reset code ident) os) ret none es).log ∧ page t.virt = page v ∧ t.virt < v ∧
    v < t.virt + BitVec.ofNat 32 t.size + 1#32 := by
  refine ⟨called, 0x13001#32, 0x3001#32, [], caller, called_ok, by decide +kernel, by decide +kernel, by decide +kernel, by decide +kernel,
    by decide, by decide, by decide⟩

/-- **C91** is violated if fetching the first instruction of the function faults: when the handler returns to it, the hook is called once
more and not the original. -/
theorem C91_refault_violation : ∃ (os : List Op) (ret h : BitVec 32) (t : Tc),
    All tiny (fun s o => OkMap s o ∧ SaneHook s o) (reset code ident) os ∧
    (hist tiny (reset code ident) os).now - (hist tiny (reset code ident) os).csBase ≠ ret ∧
    ((trampoline tiny (hist tiny (reset code ident) os) ret (some ([], h)) []).step tiny (.next (hist tiny (reset code ident) os).now false)).log =
      t :: (trampoline tiny (hist tiny (reset code ident) os) ret (some ([], h)) []).log ∧
    t.hook = some 7 := by
  refine ⟨hooked, 0x13000#32, 0x2000#32, ⟨0, 0xFFFF0000#32, 0x1000#32, 0x1000#32, 0#32, 0, [], some 7⟩, hooked_ok, by decide +kernel, by decide +kernel, rfl⟩

-- what a block does besides running is done: a mode switch
example : (acts tiny (reset code ident) [setTramp (reset code ident)]).flags ≠ (reset code ident).flags := by decide +kernel

end Verif.Tc
