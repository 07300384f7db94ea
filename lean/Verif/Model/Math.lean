import Verif.Model.Util

/-! # `src/math/util.rs`, `src/math/cubic.rs`, `src/math/lut.rs` and the parts of `cgmath` used -/

namespace TrafficSim

/-- `cgmath::Vector2<f64>` and `cgmath::Point2<f64>` (`src/math.rs:14-18`).  Simplification: points
and vectors share one type. -/
structure V2 (F : Type) where
  x : F
  y : F

section
variable {F : Type} [Flt F]

namespace V2

/-- `cgmath`: vector addition, point plus vector -/
def add (a b : V2 F) : V2 F := ⟨a.x + b.x, a.y + b.y⟩
/-- `cgmath`: vector subtraction, point minus point, point minus vector -/
def sub (a b : V2 F) : V2 F := ⟨a.x - b.x, a.y - b.y⟩
/-- `cgmath`: scalar times vector and vector times scalar -/
def smul (k : F) (a : V2 F) : V2 F := ⟨k * a.x, k * a.y⟩
/-- `cgmath`: vector divided by scalar -/
def sdiv (a : V2 F) (k : F) : V2 F := ⟨a.x / k, a.y / k⟩
/-- `cgmath::InnerSpace::dot` -/
def dot (a b : V2 F) : F := a.x * b.x + a.y * b.y
/-- `cgmath::Vector2::perp_dot` -/
def perpDot (a b : V2 F) : F := a.x * b.y - a.y * b.x
/-- `cgmath::InnerSpace::magnitude2` -/
def magnitude2 (a : V2 F) : F := dot a a
/-- `cgmath::InnerSpace::magnitude` -/
def magnitude (a : V2 F) : F := fsqrt (magnitude2 a)
/-- `cgmath::InnerSpace::normalize_to` -/
def normalizeTo (a : V2 F) (m : F) : V2 F := smul (m / magnitude a) a
/-- `cgmath::InnerSpace::normalize` -/
def normalize (a : V2 F) : V2 F := normalizeTo a 1.0
/-- `cgmath::VectorSpace::lerp` -/
def lerp (a b : V2 F) (t : F) : V2 F := add a (smul t (sub b a))
/-- `cgmath::MetricSpace::distance` -/
def distance (a b : V2 F) : F := magnitude (sub b a)
/-- `PartialEq` for `cgmath::Vector2` -/
def beq (a b : V2 F) : Bool := feq a.x b.x && feq a.y b.y
/-- The zero vector -/
def zero : V2 F := ⟨0.0, 0.0⟩

end V2

/-- `src/math/util.rs:11-19` -/
def projectLocal (point origin xAxis yAxis : V2 F) : V2 F :=
  let p := point.sub origin
  ⟨p.dot xAxis, p.dot yAxis⟩

/-- `src/math/util.rs:22-24` -/
def rot90 (v : V2 F) : V2 F := ⟨-v.y, v.x⟩

/-- `src/math/util.rs:35-40` -/
def normalizeWithDerivative (v dv : V2 F) : V2 F × V2 F :=
  let mag := v.magnitude
  let s := v.sdiv mag
  let ds := (dv.sub (V2.smul (s.dot dv) s)).sdiv mag
  (s, ds)

end

/-- `src/math/cubic.rs:9-12` -/
structure CubicFn (F : Type) where
  c0 : F
  c1 : F
  c2 : F
  c3 : F
  offset : F

section
variable {F : Type} [Flt F]

namespace CubicFn

/-- `src/math/cubic.rs:16-21` -/
def constant (y : F) : CubicFn F := ⟨0.0, 0.0, 0.0, y, 0.0⟩

/-- `src/math/cubic.rs:25-35` -/
def fit (x1 y1 dydx1 x2 y2 dydx2 : F) : CubicFn F :=
  let w := x2 - x1
  let a := 2.0 * y1 - 2.0 * y2 + w * dydx1 + w * dydx2
  let b := -3.0 * y1 + 3.0 * y2 - 2.0 * w * dydx1 - w * dydx2
  let c := w * dydx1
  let d := y1
  { c0 := a * powNeg3 w, c1 := b * powNeg2 w, c2 := c * powNeg1 w, c3 := d, offset := -x1 }

/-- `src/math/cubic.rs:38-43` -/
def translateX (f : CubicFn F) (amount : F) : CubicFn F := { f with offset := f.offset + amount }

/-- `src/math/cubic.rs:56-64` -/
def yAndDy (f : CubicFn F) (x : F) : F × F :=
  let x := x + f.offset
  let y := f.c0 * x * x * x + f.c1 * x * x + f.c2 * x + f.c3
  let dy := f.c0 * 3.0 * x * x + f.c1 * 2.0 * x + f.c2
  (y, dy)

/-- `src/math/cubic.rs:46-48` -/
def y (f : CubicFn F) (x : F) : F := (f.yAndDy x).1

/-- `src/math/cubic.rs:51-53` -/
def dy (f : CubicFn F) (x : F) : F := (f.yAndDy x).2

end CubicFn

end

/-- `src/math/lut.rs:6-10` -/
structure LookupTable (F T : Type) where
  offset : F
  step : F
  values : List T

section
variable {F T : Type} [Flt F]

/-- `src/math/lut.rs:14-24`.  Simplification: the sampling closure is a pure function. -/
def LookupTable.fromSamples (range : Interval F) (step : F) (f : F → T) : LookupTable F T :=
  let offset := range.min
  let numSamples := toUsize (fceil (range.length / step))
  let xs := (List.range numSamples).map fun i => offset + (Flt.ofNat i + 0.5) * step
  { offset, step, values := xs.map f }

/-- `src/math/lut.rs:27-31` -/
def LookupTable.sample (t : LookupTable F T) (x : F) : M T :=
  let idx := (x - t.offset) / t.step
  if t.values.length = 0 then throw .emptySamples
  else
    let idx := min (toU32 idx) (t.values.length - 1)
    match t.values[idx]? with
    | some v => pure v
    | none => throw .outOfBounds

end

end TrafficSim
