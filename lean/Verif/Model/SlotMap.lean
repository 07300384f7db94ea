import Verif.Model.Flt

/-!
# Slot maps

Model of the external crate `slotmap` 1.0.6 (`SlotMap`), which stores links, vehicles and lights.
Simplifications: the sentinel slot at index 0 is omitted (indices are shifted by one); versions are
unbounded naturals instead of wrapping `u32`.
-/

namespace TrafficSim

/-- A slot map key, `src/lib.rs:73-80` (`LinkId`, `VehicleId`, `TrafficLightId`). -/
structure Key where
  idx : Nat
  ver : Nat
  deriving DecidableEq, Repr, Inhabited

/-- `Key::null()` of the crate `slotmap`; `Default` for keys. -/
def Key.null : Key := ⟨u32Max, 1⟩

/-- `Key::is_null()` of the crate `slotmap`. -/
def Key.isNull (k : Key) : Bool := k.idx == u32Max

/-- One slot: its version (odd iff occupied) and its value if occupied. -/
structure Slot (V : Type) where
  ver : Nat
  val : Option V

/-- Slots in index order, and the LIFO free list of vacant slots. -/
structure SlotMap (V : Type) where
  slots : List (Slot V)
  free : List Nat

namespace SlotMap
variable {V : Type}

/-- `SlotMap::default()` -/
def empty : SlotMap V := ⟨[], []⟩

/-- `SlotMap::get` -/
def get? (m : SlotMap V) (k : Key) : Option V :=
  match m.slots[k.idx]? with
  | some s => if s.ver = k.ver then s.val else none
  | none => none

/-- `SlotMap::contains_key` -/
def contains (m : SlotMap V) (k : Key) : Bool := (m.get? k).isSome

/-- `version | 1` -/
def occupy (v : Nat) : Nat := if v % 2 = 0 then v + 1 else v

/-- `SlotMap::insert_with_key`: reuses the most recently freed slot, otherwise appends a slot.
`f` may itself fail (a panic inside the closure). -/
def insertWithKey (m : SlotMap V) (f : Key → M V) : M (SlotMap V × Key) :=
  match m.free with
  | i :: rest =>
    match m.slots[i]? with
    | some s => do
      let k : Key := ⟨i, occupy s.ver⟩
      let v ← f k
      pure (⟨m.slots.set i ⟨k.ver, some v⟩, rest⟩, k)
    | none => throw .outOfBounds
  | [] =>
    if m.slots.length + 1 ≥ u32Max then throw .slotMapFull
    else do
      let k : Key := ⟨m.slots.length, 1⟩
      let v ← f k
      pure (⟨m.slots ++ [⟨1, some v⟩], []⟩, k)

/-- `SlotMap::remove` -/
def remove (m : SlotMap V) (k : Key) : SlotMap V × Option V :=
  match m.get? k with
  | some v => (⟨m.slots.set k.idx ⟨k.ver + 1, none⟩, k.idx :: m.free⟩, some v)
  | none => (m, none)

/-- Mutation through `get_mut` / `IndexMut`; no effect on a key that is not present. -/
def modify (m : SlotMap V) (k : Key) (f : V → V) : SlotMap V :=
  match m.get? k with
  | some v => ⟨m.slots.set k.idx ⟨k.ver, some (f v)⟩, m.free⟩
  | none => m

/-- The keys of the occupied slots from index `i`, in slot order. -/
def keysFrom : Nat → List (Slot V) → List Key
  | _, [] => []
  | i, s :: ss => if s.val.isSome then ⟨i, s.ver⟩ :: keysFrom (i + 1) ss else keysFrom (i + 1) ss

/-- The order in which `SlotMap` iterators visit keys. -/
def keys (m : SlotMap V) : List Key := keysFrom 0 m.slots

end SlotMap

end TrafficSim
