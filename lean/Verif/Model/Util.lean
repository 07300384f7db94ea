import Verif.Model.SlotMap

/-! # `src/util.rs` -/

namespace TrafficSim

/-- `src/util.rs:8-13` -/
inductive Direction
  | left
  | right
  deriving DecidableEq

/-- `src/util.rs:15-23` -/
structure Interval (F : Type) where
  min : F
  max : F

section
variable {F : Type} [Flt F]

/-- `src/util.rs:34-36` -/
def Interval.overlaps (a b : Interval F) : Bool := decide (b.min < a.max) && decide (a.min < b.max)

/-- `src/util.rs:39-41` -/
def Interval.contains (a : Interval F) (v : F) : Bool := decide (a.min ≤ v) && decide (v ≤ a.max)

/-- `src/util.rs:46-48` -/
def Interval.length (a : Interval F) : F := a.max - a.min

/-- `src/util.rs:53-55` -/
def Interval.asArray (a : Interval F) : F × F := (a.min, a.max)

/-- `src/util.rs:60-65` -/
def Interval.disc (centre radius : F) : Interval F := ⟨centre - radius, centre + radius⟩

/-- `src/util.rs:68-70` -/
def Interval.midpoint (a : Interval F) : F := 0.5 * (a.min + a.max)

/-- `src/util.rs:74-76` -/
def Interval.clearanceWith (a b : Interval F) : F := fmax (b.min - a.max) (a.min - b.max)

/-- `src/util.rs:80-82` -/
def Interval.distance (a : Interval F) (x : F) : F := fmax (x - a.max) (a.min - x)

/-- `src/util.rs:86-88` -/
def Interval.lerp (a : Interval F) (t : F) : F := a.min + t * (a.max - a.min)

/-- `src/util.rs:92-94` -/
def Interval.invLerp (a : Interval F) (v : F) : F := (v - a.min) / (a.max - a.min)

/-- `src/util.rs:97-106` -/
def Interval.add (a : Interval F) (r : F) : Interval F := ⟨a.min + r, a.max + r⟩

/-- `src/util.rs:108-117` -/
def Interval.sub (a : Interval F) (r : F) : Interval F := ⟨a.min - r, a.max - r⟩

end

/-- `src/util.rs:125-129`, as the list of the values the iterator yields -/
def rotatedRange (count start : Nat) : List Nat :=
  (List.range count).map fun i => let j := i + start; if j ≥ count then j - count else j

end TrafficSim
