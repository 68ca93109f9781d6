/-
  Specification vocabulary.

  Everything in this file is independent of the code in /repo: plain 3x3 tensors
  over the reals, rotations, double contraction, axial vectors, and the way the
  *documentation* of the interface (src/ecmech/ECMech_matModelBase.h:102-160)
  lists tensor components.  Property theorems are stated with these notions.
-/
import Mathlib.Analysis.Real.Sqrt
import Mathlib.LinearAlgebra.Matrix.Trace
import Mathlib.LinearAlgebra.Matrix.Determinant.Basic
import Mathlib.LinearAlgebra.Matrix.Symmetric
import Mathlib.Data.Matrix.Mul
import Mathlib.LinearAlgebra.Matrix.Notation
import Mathlib.Analysis.SpecialFunctions.Trigonometric.Basic
import Mathlib.Analysis.Calculus.FDeriv.Basic
import Mathlib.Topology.Algebra.Module.FiniteDimension

namespace Ecm.Spec

/-- second order tensors in three dimensions -/
abbrev T3 := Matrix (Fin 3) (Fin 3) ℝ

/-- vectors in three dimensions -/
abbrev V3 := Fin 3 → ℝ

/-- double contraction A : B -/
def ddot (A B : T3) : ℝ := ∑ i, ∑ j, A i j * B i j

/-- dot product of vectors of any length -/
def dot {n : ℕ} (a b : Fin n → ℝ) : ℝ := ∑ i, a i * b i

/-- euclidean length -/
noncomputable def len {n : ℕ} (a : Fin n → ℝ) : ℝ := Real.sqrt (dot a a)

/-- symmetric and traceless -/
def IsDev (A : T3) : Prop := A.IsSymm ∧ A.trace = 0

/-- skew symmetric -/
def IsSkew (W : T3) : Prop := W.transpose = -W

/-- proper rotation -/
def IsRot (R : T3) : Prop := R * R.transpose = 1 ∧ R.transpose * R = 1 ∧ R.det = 1

/-- deviatoric part -/
noncomputable def dev (A : T3) : T3 := A - (A.trace / 3) • (1 : T3)

/-- symmetric part -/
noncomputable def sym (A : T3) : T3 := (1 / 2 : ℝ) • (A + A.transpose)

/-- skew part -/
noncomputable def skw (A : T3) : T3 := (1 / 2 : ℝ) • (A - A.transpose)

/-- axial vector in the convention documented for `spinV`
    (ECMech_matModelBase.h:115-122): wxx = (L32-L23)/2, wyy = (L13-L31)/2,
    wzz = (L21-L12)/2, for an arbitrary velocity gradient L -/
noncomputable def axial (L : T3) : V3 :=
  ![(L 2 1 - L 1 2) / 2, (L 0 2 - L 2 0) / 2, (L 1 0 - L 0 1) / 2]

/-- cross product -/
def cross (a b : V3) : V3 :=
  ![a 1 * b 2 - a 2 * b 1, a 2 * b 0 - a 0 * b 2, a 0 * b 1 - a 1 * b 0]

/-- dyad a (x) b -/
def dyad (a b : V3) : T3 := fun i j => a i * b j

/-- Voigt list of the components of a symmetric tensor in the documented order
    [xx, yy, zz, yz, xz, xy] (ECMech_matModelBase.h:106-111, 140-144) -/
def voigt (A : T3) : Fin 6 → ℝ := ![A 0 0, A 1 1, A 2 2, A 1 2, A 0 2, A 0 1]

/-- documented seven-component form: deviatoric Voigt components followed by the
    pressure p = - mean normal stress (ECMech_matModelBase.h:140-144) -/
noncomputable def svecP (A : T3) : Fin 7 → ℝ :=
  ![(dev A) 0 0, (dev A) 1 1, (dev A) 2 2, (dev A) 1 2, (dev A) 0 2, (dev A) 0 1, -(A.trace / 3)]

/-- the symmetric tensor whose documented Voigt components are v -/
def ofVoigt (v : Fin 6 → ℝ) : T3 :=
  !![v 0, v 5, v 4; v 5, v 1, v 3; v 4, v 3, v 2]

/-- the symmetric tensor represented by a documented seven-component list -/
def ofSvecP (v : Fin 7 → ℝ) : T3 :=
  !![v 0 - v 6, v 5, v 4; v 5, v 1 - v 6, v 3; v 4, v 3, v 2 - v 6]

/-- the deviatoric tensor represented by the first six entries of a documented
    seven-component list -/
def devOfSvecP (v : Fin 7 → ℝ) : T3 :=
  !![v 0, v 5, v 4; v 5, v 1, v 3; v 4, v 3, v 2]

/-- matrix of the map x ↦ a × x -/
def crossMat (a : V3) : T3 := !![0, -a 2, a 1; a 2, 0, -a 0; -a 1, a 0, 0]

/-- Rodrigues formula: rotation by the angle t about the unit vector n -/
noncomputable def rodrigues (t : ℝ) (n : V3) : T3 :=
  Real.cos t • (1 : T3) + Real.sin t • crossMat n + (1 - Real.cos t) • dyad n n

open Classical in
/-- exponential map from rotation vectors to unit quaternions: rotation by the angle |e| about e -/
noncomputable def expQuat (e : V3) : Fin 4 → ℝ :=
  if e = 0 then ![1, 0, 0, 0]
  else ![Real.cos (len e / 2), Real.sin (len e / 2) * (e 0 / len e),
    Real.sin (len e / 2) * (e 1 / len e), Real.sin (len e / 2) * (e 2 / len e)]

/-- unit normal m, unit direction s, direction in the plane -/
def IsSlipSystem (m s : V3) : Prop := dot m m = 1 ∧ dot s s = 1 ∧ dot m s = 0

/-- two slip systems coincide up to sign: equal or opposite Schmid tensors -/
def SameSystem (m s m' s' : V3) : Prop := dyad s m = dyad s' m' ∨ dyad s m = -dyad s' m'

/-- cubic symmetry operations: the 48 signed permutation matrices (of which the 24 with
    determinant one are the rotations of the cube) -/
def cubicOp (σ : Equiv.Perm (Fin 3)) (ε : Fin 3 → ℤˣ) : T3 :=
  fun i j => if j = σ i then ((ε i : ℤ) : ℝ) else 0

/-- rotation by 60 degrees about the third axis -/
noncomputable def hexRot : T3 :=
  !![1 / 2, -(Real.sqrt 3 / 2), 0; Real.sqrt 3 / 2, 1 / 2, 0; 0, 0, 1]

/-- rotation by 180 degrees about the first axis -/
def hexFlip : T3 := !![1, 0, 0; 0, -1, 0; 0, 0, -1]

/-- rotations of the hexagonal crystal class: generated by the six-fold axis along the third
    direction and a two-fold axis along the first -/
inductive HexOp : T3 → Prop
  | one : HexOp 1
  | rot {R : T3} : HexOp R → HexOp (hexRot * R)
  | flip {R : T3} : HexOp R → HexOp (hexFlip * R)

/-- unit vector along a cubic crystallographic direction of the family <p q r>: any permutation of
    the indices with any signs, normalised -/
def CubicFamily (p q r : ℤ) (v : V3) : Prop :=
  ∃ (σ : Equiv.Perm (Fin 3)) (ε : Fin 3 → ℤˣ), ∀ i,
    v i = ((ε i : ℤ) : ℝ) * ((![p, q, r] (σ i) : ℤ) : ℝ) / Real.sqrt (p ^ 2 + q ^ 2 + r ^ 2)

/-- axes a1, a2, a3, c of a hexagonal lattice with a = 1 and c = r -/
noncomputable def hexAxis (r : ℝ) : Fin 4 → V3 :=
  ![![1, 0, 0], ![-(1 / 2), Real.sqrt 3 / 2, 0], ![-(1 / 2), -(Real.sqrt 3 / 2), 0], ![0, 0, r]]

/-- four-index vectors equivalent to `h` in the hexagonal class: any permutation of the first three
    indices, a common sign of these and a sign of the last -/
def HexIndices (h v : Fin 4 → ℤ) : Prop :=
  ∃ (σ : Equiv.Perm (Fin 3)) (ε δ : ℤˣ),
    v = ![ε * h (σ 0).castSucc, ε * h (σ 1).castSucc, ε * h (σ 2).castSucc, δ * h 3]

/-- unit normal of a plane of the family {hkil} in a lattice with c/a = r: its products with the axes
    a1, a2, a3, c are proportional to the indices -/
def HexPlane (r : ℝ) (h : Fin 4 → ℤ) (m : V3) : Prop :=
  dot m m = 1 ∧ ∃ v, HexIndices h v ∧ ∃ t : ℝ, 0 < t ∧ ∀ k, dot m (hexAxis r k) = t * v k

/-- unit vector along a direction of the family <uvtw>: u a1 + v a2 + t a3 + w c, normalised -/
def HexDirection (r : ℝ) (h : Fin 4 → ℤ) (s : V3) : Prop :=
  dot s s = 1 ∧ ∃ v, HexIndices h v ∧ ∃ t : ℝ, 0 < t ∧ s = fun j => t * ∑ k, v k * hexAxis r k j

/-- the four hexagonal families of slip planes: basal, prismatic, pyramidal, pyramidal -/
def hcpPlanes : Fin 4 → Fin 4 → ℤ := ![![0, 0, 0, 1], ![1, 0, -1, 0], ![1, 0, -1, 1], ![1, 0, -1, 1]]
/-- their slip directions: a, a, a, c+a -/
def hcpDirs : Fin 4 → Fin 4 → ℤ := ![![1, 1, -2, 0], ![1, 1, -2, 0], ![1, 1, -2, 0], ![1, 1, -2, 3]]
/-- position of the first system of each family, and the number of systems -/
def hcpStart : Fin 5 → ℕ := ![0, 3, 6, 12, 24]

/-- linear elastic stress of a cubic crystal with cube axes along the coordinate axes:
    the stiffness matrix c11, c12, c44 of the textbooks applied to a strain tensor -/
def cubicStress (c11 c12 c44 : ℝ) (e : T3) : T3 :=
  !![c11 * e 0 0 + c12 * e 1 1 + c12 * e 2 2, 2 * c44 * e 0 1, 2 * c44 * e 0 2;
     2 * c44 * e 1 0, c12 * e 0 0 + c11 * e 1 1 + c12 * e 2 2, 2 * c44 * e 1 2;
     2 * c44 * e 2 0, 2 * c44 * e 2 1, c12 * e 0 0 + c12 * e 1 1 + c11 * e 2 2]

/-- linear elastic stress of a hexagonal crystal with the c axis along the third coordinate axis:
    stiffness matrix c11, c12, c13, c33, c44 with c66 = (c11 - c12)/2 -/
noncomputable def hexagStress (c11 c12 c13 c33 c44 : ℝ) (e : T3) : T3 :=
  !![c11 * e 0 0 + c12 * e 1 1 + c13 * e 2 2, 2 * ((c11 - c12) / 2) * e 0 1, 2 * c44 * e 0 2;
     2 * ((c11 - c12) / 2) * e 1 0, c12 * e 0 0 + c11 * e 1 1 + c13 * e 2 2, 2 * c44 * e 1 2;
     2 * c44 * e 2 0, 2 * c44 * e 2 1, c13 * e 0 0 + c13 * e 1 1 + c33 * e 2 2]

/-- the linear function v ↦ ∑ a_j v_j -/
noncomputable def lin {n : ℕ} (a : Fin n → ℝ) : (Fin n → ℝ) →L[ℝ] ℝ :=
  ∑ j, a j • ContinuousLinearMap.proj j

/-- the linear function X ↦ ∑ A_pq X_pq on 3x3 arrays -/
noncomputable def lin33 (A : T3) : (Fin 3 → Fin 3 → ℝ) →L[ℝ] ℝ :=
  ∑ p, ∑ q, A p q • (ContinuousLinearMap.proj (R := ℝ) (φ := fun _ : Fin 3 => ℝ) q).comp
    (ContinuousLinearMap.proj (R := ℝ) (φ := fun _ : Fin 3 => Fin 3 → ℝ) p)

/-- `F` is (Fréchet) differentiable at `x` and `J` is the matrix of its partial derivatives -/
def HasJacobian {m n : ℕ} (F : (Fin n → ℝ) → (Fin m → ℝ)) (J : Matrix (Fin m) (Fin n) ℝ)
    (x : Fin n → ℝ) : Prop :=
  ∀ i, HasFDerivAt (fun y => F y i) (lin (J i)) x

/-- velocity gradient (in the lattice frame) of slip at the rates `γ` on systems with directions `s`
    and plane normals `m` -/
def slipGrad {n : ℕ} (γ : Fin n → ℝ) (s m : Fin n → V3) : T3 := ∑ i, γ i • dyad (s i) (m i)

/-- the kinematic equations of an elasto-viscoplastic crystal over one time step, in the lattice
    frame: `a` is the cube root of the relative volume, `D` and `w` the deviatoric deformation rate
    and the spin vector in the sample frame, `R` the lattice orientation, `E` and `Edot` the
    deviatoric elastic strain and its rate, `Lp` the velocity gradient of slip and `ξ` the rotation
    increment of the lattice -/
structure Balance (a dt : ℝ) (D : T3) (w : V3) (R E Edot Lp : T3) (ξ : V3) : Prop where
  strain : (1 / a) • Edot + dev (sym Lp) = R.transpose * D * R
  spin : ξ = dt • (R.transpose.mulVec w - axial Lp + (1 / (2 * a ^ 2)) • axial (Edot * E - E * Edot))

end Ecm.Spec
