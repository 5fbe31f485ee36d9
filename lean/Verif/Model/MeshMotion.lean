import Mathlib.Analysis.SpecialFunctions.Trigonometric.Basic
import Mathlib.Analysis.SpecialFunctions.Trigonometric.Inverse
import Mathlib.Analysis.SpecialFunctions.Complex.Arg
import Mathlib.Algebra.BigOperators.Fin

/-!
# Mesh motion

Models the prescribed rotation and the six-degree-of-freedom motion of src/Realm.C:2178-3080.
Three space dimensions; in two the code uses the same formulas with the third coordinate zero and
stores the first two results.  Arithmetic is exact.
-/

namespace Verif.Motion

section
variable {K : Type*} [Field K]

/-- `mesh_velocity_cross_product` (Realm.C:3085-3090). -/
def crossProduct (o c : Fin 3 → K) : Fin 3 → K
  | 0 => o 1 * c 2 - o 2 * c 1
  | 1 => o 2 * c 0 - o 0 * c 2
  | 2 => o 0 * c 1 - o 1 * c 0

/-- The displacement formula shared by `set_current_displacement` (Realm.C:2717-2720) and
`set_initial_displacement` (2931-2934); `q` is the quaternion, `c` the centroid, `x` the model
coordinates. -/
def quatDisplacement (q : Fin 4 → K) (c x : Fin 3 → K) : Fin 3 → K
  | 0 => (q 0 * q 0 + q 1 * q 1 - q 2 * q 2 - q 3 * q 3) * (x 0 - c 0)
      + 2 * (q 1 * q 2 - q 0 * q 3) * (x 1 - c 1) + 2 * (q 0 * q 2 + q 1 * q 3) * (x 2 - c 2) - x 0 + c 0
  | 1 => 2 * (q 1 * q 2 + q 0 * q 3) * (x 0 - c 0)
      + (q 0 * q 0 - q 1 * q 1 + q 2 * q 2 - q 3 * q 3) * (x 1 - c 1)
      + 2 * (q 2 * q 3 - q 0 * q 1) * (x 2 - c 2) - x 1 + c 1
  | 2 => 2 * (q 1 * q 3 - q 0 * q 2) * (x 0 - c 0) + 2 * (q 0 * q 1 + q 2 * q 3) * (x 1 - c 1)
      + (q 0 * q 0 - q 1 * q 1 - q 2 * q 2 + q 3 * q 3) * (x 2 - c 2) - x 2 + c 2

/-- `set_current_coordinates` (Realm.C:2950-2979), `init_current_coordinates`. -/
def currentCoords (x d : Fin 3 → K) : Fin 3 → K := fun i => x i + d i

/-- `compute_vrtm` (Realm.C:3150-3184). -/
def velocityRtm (u vMesh : Fin 3 → K) : Fin 3 → K := fun i => u i - vMesh i

/-- `get_rotmat_from_quat` with `to_frame = true` (Realm.C:2339-2349): entry in row `i`, column `j`. -/
def rotMat (q : Fin 4 → K) : Fin 3 → Fin 3 → K
  | 0, 0 => 2 * (q 0 * q 0 + q 1 * q 1 - 1 / 2)
  | 0, 1 => 2 * (q 1 * q 2 - q 0 * q 3)
  | 0, 2 => 2 * (q 1 * q 3 + q 0 * q 2)
  | 1, 0 => 2 * (q 1 * q 2 + q 0 * q 3)
  | 1, 1 => 2 * (q 0 * q 0 + q 2 * q 2 - 1 / 2)
  | 1, 2 => 2 * (q 2 * q 3 - q 0 * q 1)
  | 2, 0 => 2 * (q 1 * q 3 - q 0 * q 2)
  | 2, 1 => 2 * (q 2 * q 3 + q 0 * q 1)
  | 2, 2 => 2 * (q 0 * q 0 + q 3 * q 3 - 1 / 2)

/-- The determinant (Realm.C:2353-2355). -/
def matDet (m : Fin 3 → Fin 3 → K) : K :=
  m 0 0 * (m 1 1 * m 2 2 - m 2 1 * m 1 2) - m 0 1 * (m 1 0 * m 2 2 - m 2 0 * m 1 2)
    + m 0 2 * (m 1 0 * m 2 1 - m 1 1 * m 2 0)

/-- The cofactor inverse (Realm.C:2364-2374). -/
def matInv (m : Fin 3 → Fin 3 → K) : Fin 3 → Fin 3 → K
  | 0, 0 => (m 1 1 * m 2 2 - m 1 2 * m 2 1) * (1 / matDet m)
  | 0, 1 => -(m 0 1 * m 2 2 - m 0 2 * m 2 1) * (1 / matDet m)
  | 0, 2 => (m 0 1 * m 1 2 - m 0 2 * m 1 1) * (1 / matDet m)
  | 1, 0 => -(m 1 0 * m 2 2 - m 1 2 * m 2 0) * (1 / matDet m)
  | 1, 1 => (m 0 0 * m 2 2 - m 0 2 * m 2 0) * (1 / matDet m)
  | 1, 2 => -(m 0 0 * m 1 2 - m 1 0 * m 0 2) * (1 / matDet m)
  | 2, 0 => (m 1 0 * m 2 1 - m 1 1 * m 2 0) * (1 / matDet m)
  | 2, 1 => -(m 0 0 * m 2 1 - m 0 1 * m 2 0) * (1 / matDet m)
  | 2, 2 => (m 0 0 * m 1 1 - m 0 1 * m 1 0) * (1 / matDet m)

/-- `get_rotmat_from_quat` (Realm.C:2335-2383); `tiny` is `FLT_MIN`. -/
def getRotMat [LinearOrder K] (tiny : K) (q : Fin 4 → K) (toFrame : Bool) : Fin 3 → Fin 3 → K :=
  if toFrame then rotMat q
  else if matDet (rotMat q) < tiny then fun i j => if i = j then 1 else 0
  else matInv (rotMat q)

/-- Product with a vector (Realm.C:2450-2452). -/
def matVec (m : Fin 3 → Fin 3 → K) (v : Fin 3 → K) : Fin 3 → K :=
  fun i => m i 0 * v 0 + m i 1 * v 1 + m i 2 * v 2

/-- The displacement of `set_displacement_six_dof` (Realm.C:2861-2863). -/
def sixDofDisplacement (m : Fin 3 → Fin 3 → K) (c disp x : Fin 3 → K) : Fin 3 → K :=
  fun i => m i 0 * (x 0 - c 0) + m i 1 * (x 1 - c 1) + m i 2 * (x 2 - c 2) - x i + c i + disp i

/-- `rotate_translate_point` (Realm.C:2786-2815) with the rotation matrix given. -/
def rotateTranslate (m : Fin 3 → Fin 3 → K) (c disp x : Fin 3 → K) : Fin 3 → K :=
  fun i => m i 0 * (x 0 - c 0) + m i 1 * (x 1 - c 1) + m i 2 * (x 2 - c 2) + c i + disp i

/-- `set_mesh_velocity` (Realm.C:3031-3080) at a node: `x` are the current coordinates. -/
def meshVelocity (omega : K) (axis c x : Fin 3 → K) : Fin 3 → K :=
  crossProduct (fun i => omega * axis i) (fun i => x i - c i)

/-- `set_mesh_velocity_six_dof` (Realm.C:2985-3026) at a node. -/
def meshVelocitySixDof (omega vel c disp x : Fin 3 → K) : Fin 3 → K :=
  fun i => crossProduct omega (fun j => x j - (c j + disp j)) i + vel i

/-- `evaluate_quat_rhs` (Realm.C:2484-2494). -/
def quatRhs (q : Fin 4 → K) (w : Fin 3 → K) : Fin 4 → K
  | 0 => (-(q 1) * w 0 - q 2 * w 1 - q 3 * w 2) * (1 / 2)
  | 1 => (q 0 * w 0 + q 3 * w 1 - q 2 * w 2) * (1 / 2)
  | 2 => (-(q 3) * w 0 + q 0 * w 1 + q 1 * w 2) * (1 / 2)
  | 3 => (q 2 * w 0 - q 1 * w 1 + q 0 * w 2) * (1 / 2)

/-- The quaternion part of `update_body_cc` (Realm.C:2509-2536): stage states are
`quat + dt*rk_fact[i]*k_i` with `rk_fact = dt/2, dt/2, dt`. -/
def attitudeStep (q : Fin 4 → K) (w : Fin 3 → K) (dt : K) : Fin 4 → K :=
  let k0 := quatRhs q w
  let k1 := quatRhs (fun j => q j + dt * (1 / 2 * dt) * k0 j) w
  let k2 := quatRhs (fun j => q j + dt * (1 / 2 * dt) * k1 j) w
  let k3 := quatRhs (fun j => q j + dt * dt * k2 j) w
  fun j => q j + dt / 6 * (k0 j + 2 * k1 j + 2 * k2 j + k3 j)

/-- `assess_rigid_euler_rhs` (Realm.C:2461-2479). -/
def rigidEulerRhs [LinearOrder K] (tiny mom w1 w2 i0 i1 i2 : K) : K :=
  if tiny < i0 then (mom - (i1 - i2) * w1 * w2) / i0 else 0

/-- The three calls (Realm.C:2567-2584). -/
def eulerRhs [LinearOrder K] (tiny : K) (w ine mom : Fin 3 → K) : Fin 3 → K
  | 0 => rigidEulerRhs tiny (mom 0) (w 2) (w 1) (ine 0) (ine 2) (ine 1)
  | 1 => rigidEulerRhs tiny (mom 1) (w 0) (w 2) (ine 1) (ine 0) (ine 2)
  | 2 => rigidEulerRhs tiny (mom 2) (w 1) (w 0) (ine 2) (ine 1) (ine 0)

/-- `advance_omega_dt` (Realm.C:2543-2597): the stage states are `omega + rk_fact[i]*dt`. -/
def advanceOmega [LinearOrder K] (tiny : K) (w ine mom : Fin 3 → K) (dt : K) : Fin 3 → K :=
  let k0 := eulerRhs tiny w ine mom
  let k1 := eulerRhs tiny (fun j => w j + 1 / 2 * dt * dt) ine mom
  let k2 := eulerRhs tiny (fun j => w j + 1 / 2 * dt * dt) ine mom
  let k3 := eulerRhs tiny (fun j => w j + dt * dt) ine mom
  fun j => w j + dt / 6 * (k0 j + 2 * k1 j + 2 * k2 j + k3 j)

/-- State of a six-dof body (`MeshMotionInfo`, include/MeshMotionInfo.h), with the attitude kept as
Euler angles. -/
structure Body (K : Type*) where
  mass : K
  force : Fin 3 → K
  applied : Fin 3 → K
  moment : Fin 3 → K
  inertia : Fin 3 → K
  accel : Fin 3 → K
  vel : Fin 3 → K
  dispCC : Fin 3 → K
  omega : Fin 3 → K
  angle : Fin 3 → K

/-- The translational part of `update_body_vel` (Realm.C:2606-2613). -/
def updateTranslation [LinearOrder K] (b : Body K) (dt : K) : Body K :=
  if 0 < b.mass then
    let a := fun i => b.accel i * (1 / 2) + 1 / 2 * (b.force i + b.applied i) / b.mass
    { b with accel := a, vel := fun i => b.vel i + dt * a i }
  else b

end

/-! ## Angles (real numbers) -/

/-- The quaternion of a rotation by `angle` about `axis` (Realm.C:2708-2714, 2922-2928). -/
noncomputable def axisQuat (axis : Fin 3 → ℝ) (angle : ℝ) : Fin 4 → ℝ
  | 0 => Real.cos (angle * (1 / 2))
  | 1 => Real.sin (angle * (1 / 2)) * axis 0
  | 2 => Real.sin (angle * (1 / 2)) * axis 1
  | 3 => Real.sin (angle * (1 / 2)) * axis 2

/-- `set_current_displacement` (Realm.C:2665-2728) followed by `set_current_coordinates`: position at
time `t` of the node with model coordinates `x`, `omega` being the nodal value at that time. -/
noncomputable def rotatedPosition (omega t : ℝ) (axis c x : Fin 3 → ℝ) : Fin 3 → ℝ :=
  currentCoords x (quatDisplacement (axisQuat axis (omega * t)) c x)

/-- `set_initial_displacement` (Realm.C:2884-2945), the angle in degrees, followed by
`set_current_coordinates`. -/
noncomputable def initialPosition (degrees : ℝ) (axis c x : Fin 3 → ℝ) : Fin 3 → ℝ :=
  currentCoords x (quatDisplacement (axisQuat axis (degrees * Real.arccos (-1) / 180)) c x)

/-- `set_omega` (Realm.C:2638-2660): the nodal angular velocity is the input value times the blending
of the current time. -/
def nodalOmega (omega : ℝ) (blend : ℝ → ℝ) (t : ℝ) : ℝ := omega * blend t

/-- The quaternion before normalization in `get_quat_from_eulerxyz` (Realm.C:2411-2421). -/
noncomputable def eulerQuat (a : Fin 3 → ℝ) : Fin 4 → ℝ
  | 0 => Real.cos (a 0 * (1 / 2)) * Real.cos (a 1 * (1 / 2)) * Real.cos (a 2 * (1 / 2))
      + Real.sin (a 0 * (1 / 2)) * Real.sin (a 1 * (1 / 2)) * Real.sin (a 2 * (1 / 2))
  | 1 => Real.sin (a 0 * (1 / 2)) * Real.cos (a 1 * (1 / 2)) * Real.cos (a 2 * (1 / 2))
      - Real.cos (a 0 * (1 / 2)) * Real.sin (a 1 * (1 / 2)) * Real.sin (a 2 * (1 / 2))
  | 2 => Real.cos (a 0 * (1 / 2)) * Real.sin (a 1 * (1 / 2)) * Real.cos (a 2 * (1 / 2))
      + Real.sin (a 0 * (1 / 2)) * Real.cos (a 1 * (1 / 2)) * Real.sin (a 2 * (1 / 2))
  | 3 => Real.cos (a 0 * (1 / 2)) * Real.cos (a 1 * (1 / 2)) * Real.sin (a 2 * (1 / 2))
      - Real.sin (a 0 * (1 / 2)) * Real.sin (a 1 * (1 / 2)) * Real.cos (a 2 * (1 / 2))

/-- `get_quat_from_eulerxyz` (Realm.C:2404-2433). -/
noncomputable def quatFromEuler (a : Fin 3 → ℝ) : Fin 4 → ℝ :=
  let q := eulerQuat a
  fun i => q i / Real.sqrt (q 0 * q 0 + q 1 * q 1 + q 2 * q 2 + q 3 * q 3)

/-- `std::atan2(y, x)`: the argument of `x + iy` (for doubles also defined at the origin). -/
noncomputable def atan2 (y x : ℝ) : ℝ := Complex.arg ⟨x, y⟩

/-- `get_eulerxyz_from_quat` (Realm.C:2388-2400). -/
noncomputable def eulerFromQuat (q : Fin 4 → ℝ) : Fin 3 → ℝ
  | 0 => atan2 (2 * (q 0 * q 1 + q 2 * q 3)) (q 0 * q 0 - q 1 * q 1 - q 2 * q 2 + q 3 * q 3)
  | 1 => Real.arcsin (-2 * (q 1 * q 3 - q 0 * q 2))
  | 2 => atan2 (2 * (q 2 * q 1 + q 0 * q 3)) (q 0 * q 0 + q 1 * q 1 - q 2 * q 2 - q 3 * q 3)

/-- `convert_vect_to_orig_frame` (Realm.C:2438-2456). -/
noncomputable def convertVect (tiny : ℝ) (v angle : Fin 3 → ℝ) (toLab : Bool) : Fin 3 → ℝ :=
  matVec (getRotMat tiny (quatFromEuler angle) toLab) v

/-- `update_body_vel` (Realm.C:2600-2633).  The moment passed on is the lab-frame one. -/
noncomputable def updateBodyVel (tiny : ℝ) (b : Body ℝ) (dt : ℝ) : Body ℝ :=
  let b1 := updateTranslation b dt
  let w := convertVect tiny b.omega b.angle false
  let w' := advanceOmega tiny w b.inertia b.moment dt
  { b1 with omega := convertVect tiny w' b.angle true }

/-- `update_body_cc` (Realm.C:2499-2540). -/
noncomputable def updateBodyCC (b : Body ℝ) (dt : ℝ) : Body ℝ :=
  { b with
    dispCC := fun i => b.dispCC i + b.vel i * dt
    angle := eulerFromQuat (attitudeStep (quatFromEuler b.angle) b.omega dt) }

/-- `update_six_dof_motion` (Realm.C:2178-2208) for one body: the two updates are inside the loop over
the parts of the body. -/
noncomputable def updateSixDof (tiny : ℝ) (parts : ℕ) (b : Body ℝ) (dt : ℝ) : Body ℝ :=
  (List.range parts).foldl (fun b _ => updateBodyCC (updateBodyVel tiny b dt) dt) b

/-! ## Centroid -/

/-- The per-process minimum and maximum of one coordinate (Realm.C:2284-2309), `large = 1e16`. -/
def localBox {K : Type*} [LinearOrder K] (lo hi : K) (xs : List K) : K × K :=
  xs.foldl (fun b x => (min b.1 x, max b.2 x)) (lo, hi)

/-- `compute_centroid_on_parts` (Realm.C:2262-2329) in one direction: `ranks` are the coordinates of
the selected nodes on each process (at least one process). -/
def centroid {K : Type*} [Field K] [LinearOrder K] (large : K) (ranks : List (List K)) : K :=
  let boxes := ranks.map (localBox large (-large))
  let lo := boxes.foldl (fun m b => min m b.1) large
  let hi := boxes.foldl (fun m b => max m b.2) (-large)
  1 / 2 * (hi + lo)

end Verif.Motion
