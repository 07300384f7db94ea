import Verif.Model.Types

/-! # `src/vehicle/acceleration.rs` -/

namespace TrafficSim

section
variable {F : Type} [Flt F]

/-- `src/vehicle/acceleration.rs:4` -/
def minGap : F := 2.0
/-- `src/vehicle/acceleration.rs:7` -/
def maxDecel : F := -6.0

namespace AccelerationModel

/-- `src/vehicle/acceleration.rs:31-39` -/
def new (headway maxAcc comfDec : F) : AccelerationModel F :=
  { headway, maxAcc, comfDec, velAdj := 1.0, acc := maxAcc }

/-- `src/vehicle/acceleration.rs:42-44` -/
def setVelocityAdjust (m : AccelerationModel F) (factor : F) : AccelerationModel F :=
  { m with velAdj := factor }

/-- `src/vehicle/acceleration.rs:47-49` -/
def reset (m : AccelerationModel F) : AccelerationModel F := { m with acc := m.maxAcc }

/-- `src/vehicle/acceleration.rs:52-54` -/
def getAcc (m : AccelerationModel F) : F := fmax m.acc maxDecel

/-- `src/vehicle/acceleration.rs:57-59` -/
def emergencyStop (m : AccelerationModel F) : AccelerationModel F := { m with acc := maxDecel }

/-- `src/vehicle/acceleration.rs:63-72` -/
def minReachTime (m : AccelerationModel F) (vel dist maxVel : F) : F :=
  let discr := 2.0 * m.maxAcc * dist + sq vel
  if discr < sq maxVel then
    (fsqrt discr - vel) / m.maxAcc
  else
    let t := (maxVel - vel) / m.maxAcc
    let d := 0.5 * (vel + maxVel) * t
    t + (dist - d) / maxVel

/-- `src/vehicle/acceleration.rs:78-83` -/
def applyCurrentSpeedLimit (m : AccelerationModel F) (vel speedLimit : F) : AccelerationModel F :=
  let speedLimit := m.velAdj * speedLimit
  let thisAcc := m.maxAcc * (1.0 - pow4 (vel / speedLimit))
  { m with acc := fmin m.acc thisAcc }

/-- `src/vehicle/acceleration.rs:91-103` -/
def applySpeedLimit (m : AccelerationModel F) (vel speedLimit distance : F) : AccelerationModel F :=
  if distance ≤ 0.0 then m.applyCurrentSpeedLimit vel speedLimit
  else
    let speedLimit := m.velAdj * speedLimit
    let comfAcc := -m.comfDec
    let thisAcc := (sq speedLimit - sq vel) / (2.0 * distance)
    if thisAcc ≤ comfAcc then
      let thisAcc := fmax (2.0 * comfAcc) thisAcc
      { m with acc := fmin m.acc thisAcc }
    else m

/-- `src/vehicle/acceleration.rs:134-147` -/
def idm (m : AccelerationModel F) (netDist myVel theirVel : F) : F :=
  if netDist ≤ minGap then -10.0 * m.maxAcc
  else
    let appr := myVel - theirVel
    let factor := 1.0 / (2.0 * fsqrt (m.maxAcc * m.comfDec))
    let ss := minGap + (myVel * m.headway) + (myVel * appr * factor)
    let term := ss / netDist
    m.maxAcc * (1.0 - (term * term))

/-- `src/vehicle/acceleration.rs:110-113` -/
def stopAtLine (m : AccelerationModel F) (netDist myVel : F) : AccelerationModel F :=
  { m with acc := fmin m.acc (m.idm netDist myVel 0.0) }

/-- `src/vehicle/acceleration.rs:121-124` -/
def followVehicle (m : AccelerationModel F) (netDist myVel theirVel : F) : AccelerationModel F :=
  { m with acc := fmin m.acc (m.idm netDist myVel theirVel) }

/-- `src/vehicle/acceleration.rs:127-131` -/
def stoppingDistance (m : AccelerationModel F) (myVel : F) : F :=
  let t := myVel / m.comfDec
  0.5 * myVel * t + 2.5

end AccelerationModel

end

end TrafficSim
