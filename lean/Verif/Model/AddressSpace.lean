/-
Model of lib86cpu/as.hpp (class address_space) and of memory_region_t (lib86cpu_priv.hpp 74-98).

A `std::map<key, unique_ptr<region>>` is a list of nodes, strictly sorted by key.  An iterator is represented by the
key of the node it points to (std::map iterators are stable).  Each region object has an identity `oid`, because
alias regions hold raw pointers to region objects (`aliased_region`).  Dereferencing `end()` is undefined behaviour
and is the outcome `none`.

Simplifications: callbacks are tokens (`Fn`), opaque and rom_ptr are tokens (Nat); XBOX-only fields are omitted.
-/
namespace Verif.AS

/-- lib86cpu_priv.hpp: enum class mem_type. -/
inductive MemType where
  | unmapped | ram | mmio | pmio | alias | rom
  deriving DecidableEq, Repr

/-- Identity of a region object: created inside address_space (split, erase, constructor) or by a request of the client
(`new memory_region_t` in interface.cpp). -/
inductive Oid where
  | own (n : Nat)
  | req (n : Nat)
  deriving DecidableEq, Repr

/-- A callback pointer: null, one given by the client, or the library's default (logging) handler. -/
inductive Fn where
  | null
  | client (id : Nat)
  | dflt
  deriving DecidableEq, Repr

/-- io_handlers_t, include/lib86cpu.hpp 63-72. -/
structure Handlers where
  r8 : Fn := .null
  r16 : Fn := .null
  r32 : Fn := .null
  r64 : Fn := .null
  w8 : Fn := .null
  w16 : Fn := .null
  w32 : Fn := .null
  w64 : Fn := .null
  deriving DecidableEq, Repr

/-- memory_region_t, lib86cpu_priv.hpp 74-98 (defaults as in the default constructor, 95-96). -/
structure Region where
  start : Nat
  stop : Nat                     -- the C++ field `end`
  type : MemType := .unmapped
  handlers : Handlers := {}
  opaq : Nat := 0
  aliasOff : Nat := 0
  aliased : Option Oid := none   -- oid of the pointed-to region object
  romPtr : Nat := 0
  buffOff : Nat := 0
  deriving DecidableEq, Repr

/-- One node of `m_region_map`. -/
structure Node where
  key : Nat
  oid : Oid
  reg : Region
  deriving DecidableEq, Repr

/-- address_space<key>; `max` is numeric_limits<key>::max(); `fresh` is the next unused object identity. -/
structure Space where
  max : Nat
  nodes : List Node
  fresh : Nat
  deriving DecidableEq, Repr

/-- as.hpp 27-34: the constructor makes a single unmapped region. -/
def Space.create (max : Nat) : Space :=
  { max := max, nodes := [{ key := 0, oid := .own 0, reg := { start := 0, stop := max } }], fresh := 1 }

/-- std::map::emplace / emplace_hint: inserts in key order, does nothing if the key is present. -/
def emplaceNode (m : List Node) (n : Node) : List Node :=
  if m.any (fun x => x.key == n.key) then m
  else m.filter (fun x => decide (x.key < n.key)) ++ n :: m.filter (fun x => decide (n.key < x.key))

/-- Assignment through an iterator (`it->second->... = ...`). -/
def updateNode (m : List Node) (k : Nat) (f : Region → Region) : List Node :=
  m.map (fun x => if x.key = k then { x with reg := f x.reg } else x)

/-- m_region_map.erase(first, std::next(last)). -/
def eraseRange (m : List Node) (k1 k2 : Nat) : List Node :=
  m.filter (fun x => !(decide (k1 ≤ x.key) && decide (x.key ≤ k2)))

/-- Dereferencing an iterator. -/
def findNode (m : List Node) (k : Nat) : Option Node := m.find? (fun x => x.key == k)

/-- std::next(it); `none` is `end()`. -/
def nextNode (m : List Node) (k : Nat) : Option Node := m.find? (fun x => decide (k < x.key))

/-- std::prev(it) for an `it` that is not begin(); `none` means `it == begin()`. -/
def prevNode (m : List Node) (k : Nat) : Option Node := (m.filter (fun x => decide (x.key < k))).getLast?

/-- as.hpp 155-159 get_it: std::prev(m_region_map.upper_bound(addr)). -/
def getIt (m : List Node) (a : Nat) : Option Node := (m.filter (fun x => decide (x.key ≤ a))).getLast?

/-- as.hpp 149-153 search. -/
def Space.search (s : Space) (a : Nat) : Option Region := (getIt s.nodes a).map (·.reg)

/-- as.hpp 161-168 split: copy of the region, `new_region.start = split_at + 1` (wraps in the key type),
`it->end = split_at`, emplace_hint of the copy. -/
def Space.split (s : Space) (k at_ : Nat) : Option Space := do
  let it ← findNode s.nodes k
  let newStart := (at_ + 1) % (s.max + 1)
  let nodes := updateNode s.nodes k (fun r => { r with stop := at_ })
  pure { s with
    nodes := emplaceNode nodes { key := newStart, oid := .own s.fresh, reg := { it.reg with start := newStart } }
    fresh := s.fresh + 1 }

/-- `if (cond) { split(it, at); }` -/
def Space.splitIf (s : Space) (cond : Bool) (k at_ : Nat) : Option Space :=
  if cond then s.split k at_ else some s

/-- The common middle part of insert and erase (as.hpp 58-61, 77-80, 100-103, 122-125):
`if (start_in_region) { split(it, start - 1); it = std::next(it); }`.  Returns the space and the key of `it`.
`start_in_region` is `start - region->start` read *before* any split, here the argument `inRegion`. -/
def Space.splitStart (s : Space) (k start : Nat) (inRegion : Bool) : Option (Space × Nat) :=
  if inRegion then do
    let s ← s.split k (start - 1)
    let it ← nextNode s.nodes k
    pure (s, it.key)
  else pure (s, k)

/-- `while (next_it->second->end < end) next_it = std::next(next_it);` starting from std::next(it)
(as.hpp 68-71, 113-116).  `none` is the dereference of end(). -/
def advance (m : List Node) (k e : Nat) : Option Node :=
  (m.filter (fun x => decide (k < x.key))).find? (fun x => decide (e ≤ x.reg.stop))

/-- The part of insert/erase that finds the nodes to replace: result is the space and the keys `it`, `last` of the
inclusive node range that covers [start, end].  `fits` tells which branch was taken (as.hpp 47-61 and 66-80 for insert,
90-103 and 110-125 for erase). -/
def Space.carve (s : Space) (start stop : Nat) : Option (Space × Nat × Nat × Bool) := do
  let it ← getIt s.nodes start
  let inRegion := decide (start ≠ it.reg.start)
  if stop ≤ it.reg.stop then
    let s ← s.splitIf (decide (stop ≠ it.reg.stop)) it.key stop
    let (s, k) ← s.splitStart it.key start inRegion
    pure (s, k, k, true)
  else
    let nxt ← advance s.nodes it.key stop
    -- as.hpp 73 / 118: the code compares with `start`, not with `end`
    let s ← s.splitIf (decide (nxt.reg.start ≠ stop)) nxt.key stop
    let (s, k) ← s.splitStart it.key start inRegion
    pure (s, k, nxt.key, false)

/-- as.hpp 42-85 insert.  `rid` is the identity of the region object passed by the caller: in the `fits` branch the
contents are swapped into the existing object, otherwise the object itself is put in the map. -/
def Space.insert (s : Space) (r : Region) (rid : Oid) : Option Space := do
  let (s, k, last, fits) ← s.carve r.start r.stop
  if fits then
    pure { s with nodes := updateNode s.nodes k (fun _ => r) }
  else
    pure { s with nodes := emplaceNode (eraseRange s.nodes k last) { key := r.start, oid := rid, reg := r } }

/-- as.hpp 87-147 erase, up to line 130: the range is replaced by a new unmapped region. -/
def Space.eraseCore (s : Space) (start stop : Nat) : Option Space := do
  let (s, k, last, _) ← s.carve start stop
  pure { s with
    nodes := emplaceNode (eraseRange s.nodes k last) { key := start, oid := .own s.fresh, reg := { start := start, stop := stop } }
    fresh := s.fresh + 1 }

/-- as.hpp 132-138: merge with the next region when that is unmapped. -/
def Space.mergeNext (s : Space) (k : Nat) : Space :=
  match nextNode s.nodes k with
  | some n => if n.reg.type = .unmapped then
      { s with nodes := eraseRange (updateNode s.nodes k (fun r => { r with stop := n.reg.stop })) n.key n.key }
    else s
  | none => s

/-- as.hpp 140-146: merge with the previous region when that is unmapped. -/
def Space.mergePrev (s : Space) (it : Node) : Space :=
  match prevNode s.nodes it.key with
  | some p => if p.reg.type = .unmapped then
      { s with nodes := eraseRange (updateNode s.nodes p.key (fun r => { r with stop := it.reg.stop })) it.key it.key }
    else s
  | none => s

/-- as.hpp 87-147 erase. -/
def Space.erase (s : Space) (start stop : Nat) : Option Space := do
  let s ← s.eraseCore start stop
  let it ← getIt s.nodes start
  let s := s.mergeNext it.key
  let it ← findNode s.nodes it.key
  pure (s.mergePrev it)

/-- A change of the address space as the api functions issue them. -/
inductive Op where
  | insert (r : Region) (rid : Oid)
  | erase (start stop : Nat)
  deriving DecidableEq, Repr

def Space.step (s : Space) : Op → Option Space
  | .insert r rid => s.insert r rid
  | .erase a b => s.erase a b

/-- A history of changes. -/
def Space.run (s : Space) : List Op → Option Space
  | [] => some s
  | op :: ops => (s.step op).bind (fun s => s.run ops)

end Verif.AS
