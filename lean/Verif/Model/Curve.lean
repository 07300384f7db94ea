import Verif.Model.Math

/-! # `src/math/curve.rs`, `src/math/curve/bezier.rs`, `src/math/curve/algorithms.rs` -/

namespace TrafficSim

/-- `src/math/curve.rs:10-38`, the trait `ParametricCurve2d`.  Simplification: the trait's methods
are pure functions. -/
structure Curve (F : Type) where
  sample : F → V2 F
  bounds : Interval F
  sampleDt : F → V2 F
  sampleDt2 : F → V2 F

section
variable {F : Type} [Flt F]

/-- `src/math/curve.rs:21-26`, the default `sample_dt` -/
def defaultSampleDt (sample : F → V2 F) (bounds : Interval F) (t : F) : V2 F :=
  let delta := bounds.length * 0.0001
  let p1 := sample t
  let p2 := sample (t + delta)
  (p2.sub p1).sdiv delta

/-- `src/math/curve.rs:32-37`, the default `sample_dt2` -/
def defaultSampleDt2 (sampleDt : F → V2 F) (bounds : Interval F) (t : F) : V2 F :=
  let delta := bounds.length * 0.0001
  let p1 := sampleDt t
  let p2 := sampleDt (t + delta)
  (p2.sub p1).sdiv delta

end

/-- `src/math/curve/bezier.rs:9-13` -/
structure LineSegment2d (F : Type) where
  start : V2 F
  tangent : V2 F
  length : F

/-- `src/math/curve/bezier.rs:59-61` -/
structure QuadraticBezier2d (F : Type) where
  p0 : V2 F
  p1 : V2 F
  p2 : V2 F

/-- `src/math/curve/bezier.rs:99-101` -/
structure CubicBezier2d (F : Type) where
  p0 : V2 F
  p1 : V2 F
  p2 : V2 F
  p3 : V2 F

section
variable {F : Type} [Flt F]

namespace LineSegment2d

/-- `src/math/curve/bezier.rs:17-29` -/
def fromEnds (start end_ : V2 F) : LineSegment2d F :=
  let diff := end_.sub start
  let length := diff.magnitude
  let tangent := diff.sdiv length
  let tangent := if isNan tangent.x then V2.zero else tangent
  { start, tangent, length }

/-- `src/math/curve/bezier.rs:37-39` -/
def end_ (l : LineSegment2d F) : V2 F := l.start.add (V2.smul l.length l.tangent)

/-- `src/math/curve/bezier.rs:43-45` -/
def sample (l : LineSegment2d F) (t : F) : V2 F := l.start.add (V2.smul t l.tangent)

/-- `src/math/curve/bezier.rs:47-49` -/
def bounds (l : LineSegment2d F) : Interval F := ⟨0.0, l.length⟩

/-- `src/math/curve/bezier.rs:42-54` with the default `sample_dt2` -/
def toCurve (l : LineSegment2d F) : Curve F where
  sample := l.sample
  bounds := l.bounds
  sampleDt _ := l.tangent
  sampleDt2 := defaultSampleDt2 (fun _ => l.tangent) l.bounds

end LineSegment2d

namespace QuadraticBezier2d

/-- `src/math/curve/bezier.rs:71-78` -/
def sample (b : QuadraticBezier2d F) (t : F) : V2 F :=
  let t1 := 1.0 - t
  ((V2.smul (t1 * t1) b.p0).add (V2.smul (2.0 * t1 * t) b.p1)).add (V2.smul (t * t) b.p2)

/-- `src/math/curve/bezier.rs:80-82` -/
def bounds (_ : QuadraticBezier2d F) : Interval F := ⟨0.0, 1.0⟩

/-- `src/math/curve/bezier.rs:84-89` -/
def sampleDt (b : QuadraticBezier2d F) (t : F) : V2 F :=
  let t1 := 1.0 - t
  ((V2.smul (-2.0 * t1) b.p0).add (V2.smul (2.0 - 4.0 * t) b.p1)).add (V2.smul (2.0 * t) b.p2)

/-- `src/math/curve/bezier.rs:91-94` -/
def sampleDt2 (b : QuadraticBezier2d F) (_t : F) : V2 F :=
  ((V2.smul 2.0 b.p0).sub (V2.smul 4.0 b.p1)).add (V2.smul 2.0 b.p2)

/-- `src/math/curve/bezier.rs:70-95` -/
def toCurve (b : QuadraticBezier2d F) : Curve F := ⟨b.sample, b.bounds, b.sampleDt, b.sampleDt2⟩

end QuadraticBezier2d

namespace CubicBezier2d

/-- `src/math/curve/bezier.rs:110-117` -/
def line (start end_ : V2 F) : CubicBezier2d F :=
  ⟨start, start.lerp end_ (1.0 / 3.0), start.lerp end_ (2.0 / 3.0), end_⟩

/-- `src/math/curve/bezier.rs:121-129` -/
def quadratic (p0 p1 p2 : V2 F) : CubicBezier2d F :=
  ⟨p0, p0.add (V2.smul (2.0 / 3.0) (p1.sub p0)), p2.add (V2.smul (2.0 / 3.0) (p1.sub p2)), p2⟩

/-- `src/math/curve/bezier.rs:132-144` -/
def subdivide (b : CubicBezier2d F) (t : F) : CubicBezier2d F × CubicBezier2d F :=
  let p10 := b.p0.lerp b.p1 t
  let p11 := b.p1.lerp b.p2 t
  let p12 := b.p2.lerp b.p3 t
  let p20 := p10.lerp p11 t
  let p21 := p11.lerp p12 t
  let p30 := p20.lerp p21 t
  (⟨b.p0, p10, p20, p30⟩, ⟨p30, p21, p12, b.p3⟩)

/-- `src/math/curve/bezier.rs:148-150` -/
def reverse (b : CubicBezier2d F) : CubicBezier2d F := ⟨b.p3, b.p2, b.p1, b.p0⟩

/-- `src/math/curve/bezier.rs:154-162` -/
def sample (b : CubicBezier2d F) (t : F) : V2 F :=
  let t1 := 1.0 - t
  (((V2.smul (t1 * t1 * t1) b.p0).add (V2.smul (3.0 * t1 * t1 * t) b.p1)).add
    (V2.smul (3.0 * t1 * t * t) b.p2)).add (V2.smul (t * t * t) b.p3)

/-- `src/math/curve/bezier.rs:164-166` -/
def bounds (_ : CubicBezier2d F) : Interval F := ⟨0.0, 1.0⟩

/-- `src/math/curve/bezier.rs:168-174` -/
def sampleDt (b : CubicBezier2d F) (t : F) : V2 F :=
  let t1 := 1.0 - t
  (((V2.smul (-3.0 * t1 * t1) b.p0).add (V2.smul (9.0 * t * t - 12.0 * t + 3.0) b.p1)).add
    (V2.smul (-9.0 * t * t + 6.0 * t) b.p2)).add (V2.smul (3.0 * t * t) b.p3)

/-- `src/math/curve/bezier.rs:153-175` with the default `sample_dt2` -/
def toCurve (b : CubicBezier2d F) : Curve F :=
  ⟨b.sample, b.bounds, b.sampleDt, defaultSampleDt2 b.sampleDt b.bounds⟩

end CubicBezier2d

/-! ## `src/math/curve/algorithms.rs` -/

/-- The `min_by(|a, b| a.1.partial_cmp(&b.1).unwrap())` of `src/math/curve/algorithms.rs:19`:
keeps the first of equal minima, panics when two compared values are unordered. -/
def minByDist : F × F → List (F × F) → M (F × F)
  | best, [] => pure best
  | best, c :: cs =>
    if c.2 < best.2 then minByDist c cs
    else if best.2 ≤ c.2 then minByDist best cs
    else throw .nanCompare

/-- The Newton iteration of `src/math/curve/algorithms.rs:26-33`, `n` iterations left. -/
def projectLoop (curve : Curve F) (point : V2 F) (maxError : F) : Nat → F → V2 F → V2 F → Option F
  | 0, _, _, _ => none
  | n + 1, t, p, pDt =>
    let error := pDt.dot (point.sub p) / pDt.magnitude
    let t := t + error
    if fabs error < maxError ∨ ¬ (curve.bounds.contains t = true) then some t
    else projectLoop curve point maxError n t (curve.sample t) (curve.sampleDt t)

/-- The initial guess of `src/math/curve/algorithms.rs:15-22` -/
def projectInit (curve : Curve F) (point : V2 F) : M F := do
  let ts := (List.range 9).map fun i => curve.bounds.lerp (Flt.ofNat i / 8.0)
  match ts.map fun t => (t, (point.sub (curve.sample t)).magnitude) with
  | [] => throw .unreachable
  | c :: cs => do
    let best ← minByDist c cs
    pure best.1

/-- `src/math/curve/algorithms.rs:6-36` -/
def projectPointOntoCurve (curve : Curve F) (point : V2 F) (maxError : F) (t0 : Option F) :
    M (Option F) := do
  let t ← match t0 with
    | some t => pure t
    | none => projectInit curve point
  pure (projectLoop curve point maxError 64 t (curve.sample t) (curve.sampleDt t))

/-- The loop of `src/math/curve/algorithms.rs:45-59` -/
def intersectLoop (curve1 curve2 : Curve F) : Nat → F → Option F → M (Option (F × F))
  | 0, _, _ => throw .diverges
  | fuel + 1, pos1, pos2 =>
    if pos1 < curve1.bounds.max then do
      let point1 := curve1.sample pos1
      let pos2 ← projectPointOntoCurve curve2 point1 0.1 pos2
      match pos2 with
      | some p2 =>
        let point2 := curve2.sample p2
        let distance := point1.distance point2
        if distance < 0.01 then pure (some (pos1, p2))
        else intersectLoop curve1 curve2 fuel (pos1 + distance) pos2
      | none => intersectLoop curve1 curve2 fuel (pos1 + 1.0) pos2
    else pure none

/-- `src/math/curve/algorithms.rs:39-61` -/
def intersectCurves (fuel : Nat) (curve1 curve2 : Curve F) : M (Option (F × F)) :=
  intersectLoop curve1 curve2 fuel curve1.bounds.min none

/-- The local variables of `equidistant_points_along_curve`, `src/math/curve/algorithms.rs:71-76`.
`points` is kept most recent first; `last_p` is its head. -/
structure EquiState (F : Type) where
  ts : Interval F
  ps0 : V2 F
  ps1 : V2 F
  dists : Interval F
  points : List (V2 F)
  lastP : V2 F

/-- The inner loop of `src/math/curve/algorithms.rs:79-105`, `n` iterations left. -/
def equiInner (curve : Curve F) (dist : F) : Nat → EquiState F → EquiState F
  | 0, s => s
  | n + 1, s =>
    let newT := s.ts.lerp (s.dists.invLerp dist)
    let newP := curve.sample newT
    let newDist := (newP.sub s.lastP).magnitude
    let f := newDist / dist
    if f < 0.99 then
      equiInner curve dist n
        { s with ts := { s.ts with min := newT }, ps0 := newP, dists := { s.dists with min := newDist } }
    else if 1.01 < f then
      equiInner curve dist n
        { s with ts := { s.ts with max := newT }, ps1 := newP, dists := { s.dists with max := newDist } }
    else
      let endT := curve.bounds.max
      let endP := curve.sample endT
      { ts := ⟨newT, endT⟩, ps0 := newP, ps1 := endP,
        dists := ⟨0.0, (endP.sub newP).magnitude⟩,
        points := newP :: s.points, lastP := newP }

/-- The outer loop of `src/math/curve/algorithms.rs:78-106` -/
def equiOuter (curve : Curve F) (dist : F) : Nat → EquiState F → M (EquiState F)
  | 0, _ => throw .diverges
  | fuel + 1, s =>
    if dist < s.dists.max then equiOuter curve dist fuel (equiInner curve dist 100 s)
    else pure s

/-- `src/math/curve/algorithms.rs:68-76` -/
def equiInit (curve : Curve F) : EquiState F :=
  let endTs := curve.bounds
  let p0 := curve.sample endTs.min
  let p1 := curve.sample endTs.max
  { ts := endTs, ps0 := p0, ps1 := p1, dists := ⟨0.0, (p1.sub p0).magnitude⟩,
    points := [p0], lastP := p0 }

/-- `src/math/curve/algorithms.rs:108-117` -/
def equiFinish (dist : F) (s : EquiState F) : List (V2 F) × F :=
  let lastPoint := s.lastP
  let endVec := s.ps1.sub lastPoint
  let endMagnitude := endVec.magnitude
  let length := Flt.ofNat (s.points.length - 1) * dist
  if 0.001 * dist < endMagnitude then
    ((lastPoint.add (endVec.normalizeTo dist) :: s.points).reverse, length + endMagnitude)
  else
    (s.points.reverse, length)

/-- `src/math/curve/algorithms.rs:64-118` -/
def equidistantPointsAlongCurve (fuel : Nat) (curve : Curve F) (dist : F) : M (List (V2 F) × F) := do
  let s ← equiOuter curve dist fuel (equiInit curve)
  pure (equiFinish dist s)

/-- The `while` loop of `src/math/curve/algorithms.rs:167-171`: `stack` has the top first and its
top is `(t2, p2)`. -/
def subdivPush (curve : Curve F) (length2 : F) (t1 : F) (p1 : V2 F) :
    Nat → F × V2 F → List (F × V2 F) → M (List (F × V2 F))
  | 0, _, _ => throw .diverges
  | fuel + 1, (t2, p2), below =>
    if length2 < (p2.sub p1).magnitude2 then
      let midT := 0.5 * (t1 + t2)
      subdivPush curve length2 t1 p1 fuel (midT, curve.sample midT) ((t2, p2) :: below)
    else pure ((t2, p2) :: below)

/-- `SubdividedSamples::next`, `src/math/curve/algorithms.rs:164-174`; stack with the top first. -/
def subdivNext (fuel : Nat) (curve : Curve F) (length2 : F) (stack : List (F × V2 F)) :
    M (Option ((F × V2 F) × List (F × V2 F))) :=
  match stack with
  | [] => pure none
  | [(t1, p1)] => pure (some ((t1, p1), []))
  | (t1, p1) :: top :: below => do
    let stack ← subdivPush curve length2 t1 p1 fuel top below
    pure (some ((t1, p1), stack))

/-- Collects an iterator of `SubdividedSamples` (`src/math/curve/algorithms.rs:121-136`). -/
def subdivCollect (fuel : Nat) (curve : Curve F) (length2 : F) :
    Nat → List (F × V2 F) → M (List (F × V2 F))
  | 0, _ => throw .diverges
  | n + 1, stack => do
    match ← subdivNext fuel curve length2 stack with
    | none => pure []
    | some (item, stack) => do
      let rest ← subdivCollect fuel curve length2 n stack
      pure (item :: rest)

/-- `SubdividedSamples::new`, `src/math/curve/algorithms.rs:146-158` (stack, top first) and
`subdivided_samples_along_curve`, `:131-136` -/
def subdividedSamplesAlongCurve (fuel : Nat) (curve : Curve F) (maxLength : F) :
    M (List (F × V2 F)) :=
  let mn := curve.bounds.min
  let mx := curve.bounds.max
  let mid := 0.5 * (mn + mx)
  subdivCollect fuel curve (sq maxLength) fuel
    [(mn, curve.sample mn), (mid, curve.sample mid), (mx, curve.sample mx)]

/-- `src/math/curve/algorithms.rs:121-128` -/
def subdividedPointsAlongCurve (fuel : Nat) (curve : Curve F) (maxLength : F) : M (List (V2 F)) := do
  let s ← subdividedSamplesAlongCurve fuel curve maxLength
  pure (s.map (·.2))

end

/-! ## `src/link/curve.rs` -/

/-- `src/link/curve.rs:8-12` -/
structure LinkCurve (F : Type) where
  scale : F
  length : F
  segments : List (QuadraticBezier2d F)

/-- `src/link/curve.rs:15-20` -/
structure LinkSample (F : Type) where
  pos : V2 F
  tan : V2 F

section
variable {F : Type} [Flt F]

/-- One segment of `src/link/curve.rs:46-51` -/
def segmentOf (p1 p2 p3 : V2 F) : QuadraticBezier2d F :=
  let mid := p1.lerp p3 0.5
  let control := p2.lerp mid (-1.0)
  ⟨p1, control, p3⟩

/-- `points.windows(3).step_by(2)` of `src/link/curve.rs:43-52` -/
def segmentsOf : List (V2 F) → List (QuadraticBezier2d F)
  | p1 :: p2 :: p3 :: rest => segmentOf p1 p2 p3 :: segmentsOf (p3 :: rest)
  | _ => []

/-- `src/link/curve.rs:36-41`: makes the number of points odd.  Fails on an empty list, like the
index expressions of the code. -/
def makeOdd (points : List (V2 F)) : M (List (V2 F)) :=
  if points.length % 2 = 0 then
    match points.reverse with
    | p2 :: p1 :: _ => pure (points ++ [p1.lerp p2 2.0])
    | _ => throw .underflow
  else pure points

namespace LinkCurve

/-- `src/link/curve.rs:32-61` -/
def withStep (fuel : Nat) (curve : Curve F) (step : F) : M (LinkCurve F) := do
  let (points, length) ← equidistantPointsAlongCurve fuel curve step
  let points ← makeOdd points
  let segments := segmentsOf points
  if segments.isEmpty then throw .noSegments
  pure { scale := 0.5 / step, length, segments }

/-- `src/link/curve.rs:25-28` -/
def new (fuel : Nat) (curve : Curve F) : M (LinkCurve F) := withStep fuel curve 0.5

/-- The index computed in `src/link/curve.rs:134` before the unchecked access.  The subtraction
`len - 1` fails on an empty list (debug profile). -/
def segmentIndex (c : LinkCurve F) (pos : F) : M Nat :=
  if c.segments.length = 0 then throw .emptySamples
  else pure (min (toU32 (pos * c.scale)) (c.segments.length - 1))

/-- `src/link/curve.rs:131-143`.  The `get_unchecked` is modelled as a checked access that fails
with `outOfBounds`, which in the code would be undefined behaviour. -/
def sampleInternal (c : LinkCurve F) (pos : F) : M (QuadraticBezier2d F × F) := do
  let idx ← c.segmentIndex pos
  match c.segments[idx]? with
  | some seg => pure (seg, pos * c.scale - Flt.ofNat idx)
  | none => throw .outOfBounds

/-- `src/link/curve.rs:73-89` -/
def sample (c : LinkCurve F) (pos offset : F) : M (LinkSample F) := do
  let (segment, t) ← c.sampleInternal pos
  let p := segment.sample t
  let tan := (segment.sampleDt t).normalize
  pure { pos := p.add (V2.smul offset (rot90 tan)), tan }

/-- `src/link/curve.rs:119-124` -/
def sampleCentre (c : LinkCurve F) (pos : F) : M (LinkSample F) := do
  let (segment, t) ← c.sampleInternal pos
  pure { pos := segment.sample t, tan := (segment.sampleDt t).normalize }

/-- The segment of `sample_internal` for a curve that is known to be non-empty. -/
def segAt (c : LinkCurve F) (d : QuadraticBezier2d F) (pos : F) : QuadraticBezier2d F × F :=
  let idx := min (toU32 (pos * c.scale)) (c.segments.length - 1)
  ((c.segments[idx]?).getD d, pos * c.scale - Flt.ofNat idx)

/-- `src/link/curve.rs:146-165`: a link curve as a parametric curve.  Simplification: the trait's
methods are total here; on an empty curve (which `with_step` never builds, and where the code would
fail) a dummy segment is used. -/
def toCurve (c : LinkCurve F) : Curve F :=
  let d : QuadraticBezier2d F := ⟨V2.zero, V2.zero, V2.zero⟩
  { sample := fun t => let (s, t) := c.segAt d t; s.sample t
    bounds := ⟨0.0, c.length⟩
    sampleDt := fun t => let (s, t) := c.segAt d t; s.sampleDt t
    sampleDt2 := fun t => let (s, t) := c.segAt d t; s.sampleDt2 t }

/-- `src/link/curve.rs:92-113` -/
def inverseSample (c : LinkCurve F) (point tangent : V2 F) : M (Option (F × F × F)) := do
  match ← projectPointOntoCurve c.toCurve point 0.001 none with
  | none => pure none
  | some pos => do
    let (segment, t) ← c.sampleInternal pos
    let cp := segment.sample t
    let cDp := segment.sampleDt t
    let cDp2 := segment.sampleDt2 t
    let (tn, tDp) := normalizeWithDerivative cDp cDp2
    let p := rot90 tn
    let pDp := rot90 tDp
    let offset := (point.sub cp).dot p
    let slope := -((cDp.add (V2.smul offset pDp)).perpDot tangent) / p.perpDot tangent
    pure (some (pos, offset, slope))

end LinkCurve

/-- `src/link/curve.rs:168-170` -/
def LinkSample.latOffset (s : LinkSample F) (lat : F) : V2 F := s.pos.add (V2.smul lat (rot90 s.tan))

/-- `src/link/curve.rs:172-174` -/
def LinkSample.longOffset (s : LinkSample F) (long : F) : V2 F := s.pos.add (V2.smul long s.tan)

end

end TrafficSim
