import Mathlib.Analysis.Real.Sqrt
import Mathlib.Algebra.Order.Floor.Semiring

/-!
# Numbers

The Rust code computes with `f64`.  The whole model is polymorphic in the number type `F`: every
function takes an instance `[Flt F]` listing exactly the primitive `f64` operations the code uses.
No law is assumed about them, so a theorem stated for every `[Flt F]` holds in particular for IEEE
binary64 with its rounding, infinities and NaN.  Two instances are given:

* `ℝ`     - exact arithmetic, used for the kinematic and geometric theorems;
* `Float` - Lean's IEEE-754 binary64, whose operations have a logical definition in the kernel
            (`Init/Data/Float/Model`), used for statements about actual floating point.
-/

namespace TrafficSim

/-- The primitive operations on `f64` that the crate uses. -/
class Flt (F : Type) extends Add F, Sub F, Mul F, Div F, Neg F, LT F, LE F, OfScientific F where
  [ltDec : DecidableLT F]
  [leDec : DecidableLE F]
  /-- `a == b` -/
  feq : F → F → Bool
  /-- `f64::is_nan` -/
  isNan : F → Bool
  /-- `f64::max`: returns the other operand if one is NaN -/
  fmax : F → F → F
  /-- `f64::min`: returns the other operand if one is NaN -/
  fmin : F → F → F
  /-- `f64::abs` -/
  fabs : F → F
  /-- `f64::sqrt` -/
  fsqrt : F → F
  /-- `f64::ceil` -/
  fceil : F → F
  /-- `n as f64` for an unsigned integer `n` -/
  ofNat : Nat → F
  /-- `x as u32`: truncates, saturates, NaN becomes 0 -/
  toU32 : F → Nat
  /-- `x as usize` on a 64-bit target: truncates, saturates, NaN becomes 0 -/
  toUsize : F → Nat

attribute [instance_reducible, instance] Flt.ltDec Flt.leDec

export Flt (feq isNan fmax fmin fabs fsqrt fceil toU32 toUsize)

/-- `u32::MAX` -/
def u32Max : Nat := 4294967295
/-- `usize::MAX` on a 64-bit target -/
def usizeMax : Nat := 18446744073709551615

/-- Exact real arithmetic.  Simplifications: no rounding, no NaN, no infinities; `x / 0 = 0` and
`sqrt x = 0` for negative `x` are Mathlib's conventions. -/
noncomputable instance instFltReal : Flt ℝ where
  toLT := Real.instLT
  toLE := Real.instLE
  ltDec := Real.decidableLT
  leDec := Real.decidableLE
  feq x y := decide (x = y)
  isNan _ := false
  fmax := max
  fmin := min
  fabs x := |x|
  fsqrt := Real.sqrt
  fceil x := (⌈x⌉ : ℝ)
  ofNat n := (n : ℝ)
  toU32 x := min ⌊x⌋₊ u32Max
  toUsize x := min ⌊x⌋₊ usizeMax

/-- IEEE-754 binary64.  `Float.ceil` is opaque to the kernel; it is only used by
`LookupTable::from_samples`. -/
instance instFltFloat : Flt Float where
  feq x y := x == y
  isNan := Float.isNaN
  fmax x y := if x < y ∨ x.isNaN then y else x
  fmin x y := if y < x ∨ x.isNaN then y else x
  fabs := Float.abs
  fsqrt := Float.sqrt
  fceil := Float.ceil
  ofNat := Float.ofNat
  toU32 x := x.toUInt32.toNat
  toUsize x := x.toUInt64.toNat

section
variable {F : Type} [Flt F]

/-- `x.powi(2)` -/
def sq (x : F) : F := x * x
/-- `x.powi(4)` -/
def pow4 (x : F) : F := (x * x) * (x * x)
/-- `x.powi(-1)` -/
def powNeg1 (x : F) : F := 1.0 / x
/-- `x.powi(-2)` -/
def powNeg2 (x : F) : F := 1.0 / (x * x)
/-- `x.powi(-3)` -/
def powNeg3 (x : F) : F := 1.0 / (x * (x * x))

end

/-- The ways in which a call can fail to return normally.  Every panic site of the code is an
explicit error value; `diverges` stands for a loop or recursion that exceeded the fuel. -/
inductive Err
  /-- `links[id]` with an id that is not in the link slot map -/
  | badLink
  /-- `vehicles[id]` with an id that is not in the vehicle slot map -/
  | badVehicle
  /-- `route[0]`, `path.links[0]` or `link_id().unwrap()` on an empty route -/
  | emptyRoute
  /-- unsigned subtraction below zero (debug profile; wraps in release) -/
  | underflow
  /-- `len() - 1` on an empty vector before an index computed from a position (debug profile; in
  release the unchecked access that follows is undefined behaviour) -/
  | emptySamples
  /-- shift amount not smaller than the bit width (debug profile; masked in release) -/
  | shiftOverflow
  /-- `phases[phase]` out of bounds -/
  | noPhase
  /-- any other slice or vector index out of bounds -/
  | outOfBounds
  /-- `assert!(!segments.is_empty())` in `LinkCurve::with_step` -/
  | noSegments
  /-- `LinkGroup::new` with fewer than two links -/
  | groupTooSmall
  /-- `expect("Link is not in group.")` -/
  | notInGroup
  /-- `group.as_ref().unwrap()` in `project_approx` -/
  | noGroup
  /-- `ArrayVec::push` on a full array -/
  | arrayFull
  /-- `partial_cmp(..).unwrap()` on NaN -/
  | nanCompare
  /-- `inverse_sample(..).unwrap()` on `None` -/
  | noProjection
  /-- `unreachable!()` -/
  | unreachable
  /-- `SlotMap` capacity exceeded -/
  | slotMapFull
  /-- `Normal::new(..).expect(..)` -/
  | badStdDev
  /-- the model's fuel ran out: the code loops forever or overflows the stack -/
  | diverges
  deriving DecidableEq, Repr

/-- A computation that returns a value or fails. -/
abbrev M (α : Type) := Except Err α

end TrafficSim
