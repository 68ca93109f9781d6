/-
  The checks of the code with numbers that may be NaN (src/ecmech/ECMech_evptn.h:60-78, 191-208, 243-268, 377-394,
  src/ecmech/ECMech_matModelBase.h:210-215, src/ecmech/ECMech_slipgeom.h:13-47, 333-430, src/ecmech/ECMech_util.h:1213-1323).

  A value is a real number or NaN.  An operation with a NaN gives a NaN and a comparison with one is false (IEEE 754, without
  options such as -ffast-math).  Simplifications: numbers are not rounded; infinities are not modelled, and divisions by zero
  and roots of negative numbers do not occur below or are reported as `undef`.
-/
import Verif.Model.SlipGeom
import Verif.Model.Elast

namespace Ecm
open Classical

/-- a double: a number or NaN -/
inductive Fl where
  | num (x : ℝ)
  | nan

namespace Fl

/-- an operation on two values (IEEE 754: NaN is passed on) -/
def op2 (f : ℝ → ℝ → ℝ) : Fl → Fl → Fl
  | num a, num b => num (f a b)
  | _, _ => nan
/-- an operation on one value -/
def op1 (f : ℝ → ℝ) : Fl → Fl
  | num a => num (f a)
  | nan => nan
noncomputable instance : Add Fl := ⟨op2 (· + ·)⟩
noncomputable instance : Sub Fl := ⟨op2 (· - ·)⟩
noncomputable instance : Mul Fl := ⟨op2 (· * ·)⟩
noncomputable instance : Neg Fl := ⟨op1 (fun a => -a)⟩
/-- `a < b` -/
def lt : Fl → Fl → Prop
  | num a, num b => a < b
  | _, _ => False
/-- `a <= b` -/
def le : Fl → Fl → Prop
  | num a, num b => a ≤ b
  | _, _ => False
/-- `fabs` -/
noncomputable def abs : Fl → Fl := op1 (fun a => |a|)
/-- `sqrt` -/
noncomputable def sqrt : Fl → Fl := op1 Real.sqrt
/-- `one / a` -/
noncomputable def inv : Fl → Fl := op1 (fun a => 1 / a)

end Fl

/-- ECMech_evptn.h:75-76 the bulk modulus of the cubic class -/
noncomputable def cubicBulkF (c11 c12 : Fl) : Fl := .num (1 / 3) * (c11 + .num 2 * c12)
/-- ECMech_evptn.h:77 the shear modulus of the cubic class -/
noncomputable def cubicGmodF (c11 c12 c44 : Fl) : Fl := (.num 2 * c11 - .num 2 * c12 + .num 6 * c44) * .num (1 / 5)
/-- ECMech_evptn.h:262, 264 the bulk modulus of the hexagonal class -/
noncomputable def hexagBulkF (c11 c12 c13 c33 : Fl) : Fl :=
  .num (1 / 3) * (.num (2 / 3) * c11 + .num (2 / 3) * c12 + .num (4 / 3) * c13 + c33 * .num (1 / 3))

/-- ECMech_evptn.h:257-261, 267 the shear modulus of the hexagonal class, ECMech_util.h:78-85 vecsssum -/
noncomputable def hexagGmodF (c11 c12 c13 c33 c44 : Fl) : Fl :=
  .num (1 / 10) * (c11 - c12 + (c11 * .num (1 / 3) + c12 * .num (1 / 3) - .num (4 / 3) * c13 + .num (2 / 3) * c33)
    + (c11 - c12) + .num 2 * c44 + .num 2 * c44)

/-- ECMech_evptn.h:191-196, 377-382 getBulkMod -/
noncomputable def getBulkModF (k : Fl) : Out Fl :=
  if k.le (.num 0) then .fail "bulk modulus negative -- not initialized?" else .ok k
/-- ECMech_evptn.h:200-208, 386-394 getGmod -/
noncomputable def getGmodF (k : Fl) : Out Fl :=
  if k.le (.num 0) then .fail "effective shear modulus negative -- not initialized?" else .ok k
/-- ECMech_matModelBase.h:210-215 getRhoRef -/
noncomputable def getRhoRefF (rho0 : Fl) : Out Fl :=
  if rho0.lt (.num 0) then .fail "rho0 does not appear to have been set" else .ok rho0

/-- three values -/
abbrev VecF := Fin 3 → Fl

/-- ECMech_util.h:55-63 vecsyadotb -/
noncomputable def dotF (a b : VecF) : Fl := a 0 * b 0 + a 1 * b 1 + a 2 * b 2
/-- ECMech_util.h:99-107 vecNorm -/
noncomputable def normF (v : VecF) : Fl := (dotF v v).sqrt
/-- ECMech_util.h:133-136 vecsVNormalize -/
noncomputable def normalizeF (v : VecF) : VecF := fun i => v i * (normF v).inv
/-- ECMech_util.h:1198-1205 vecCrossProd -/
noncomputable def crossF (a b : VecF) : VecF :=
  ![a 1 * b 2 - a 2 * b 1, -a 0 * b 2 + a 2 * b 0, a 0 * b 1 - a 1 * b 0]
/-- ECMech_util.h:1213-1221 m_to_o_dir; the indices are numbers -/
noncomputable def mToODirF (m : Vec 4) (r : Fl) : VecF :=
  ![.num (m 0 - (1/2) * (m 1 + m 2)), .num (sqr3 * (1/2) * (m 1 - m 2)), .num (m 3) * r]

/-- ECMech_util.h:1260-1287: vec_basal and pnt_b -/
noncomputable def basalF (ann : Vec 4) (r : Fl) : Out (VecF × VecF) :=
  if |ann 0| < idpEpsSqrt then
    if ann 1 = 0 ∨ ann 2 = 0 then .undef "division by zero plane index"
    else .ok (fun i => mToODirF ![0, 1 / ann 1, 0, 0] r i - mToODirF ![0, 0, 1 / ann 2, 0] r i,
      mToODirF ![0, 0, 1 / ann 2, 0] r)
  else if |ann 1| < idpEpsSqrt then
    if ann 2 = 0 then .undef "division by zero plane index"
    else .ok (fun i => mToODirF ![1 / ann 0, 0, 0, 0] r i - mToODirF ![0, 0, 1 / ann 2, 0] r i,
      mToODirF ![0, 0, 1 / ann 2, 0] r)
  else .ok (fun i => mToODirF ![1 / ann 0, 0, 0, 0] r i - mToODirF ![0, 1 / ann 1, 0, 0] r i,
    mToODirF ![0, 1 / ann 1, 0, 0] r)

/-- ECMech_util.h:1255-1307: the plane normal before normalisation -/
noncomputable def planeF (ann : Vec 4) (r : Fl) : Out VecF :=
  if |ann 0| + |ann 1| + |ann 2| < idpEpsSqrt then .ok ![.num 0, .num 0, .num 1]
  else
    (basalF ann r).bind fun bp =>
      if |ann 3| < idpEpsSqrt then .ok (crossF bp.1 ![.num 0, .num 0, .num 1])
      else .ok (crossF bp.1 (fun i => mToODirF ![0, 0, 0, 1 / ann 3] r i - bp.2 i))

/-- ECMech_util.h:1312-1316: align vecm with ann -/
noncomputable def alignF (ann : Vec 4) (m : VecF) : VecF := if (m 2 * .num (ann 3)).lt (.num 0) then fun i => -m i else m

/-- ECMech_util.h:1230-1323 miller_to_orthog_sngl -/
noncomputable def millerF (ann abb : Vec 4) (r : Fl) : Out (VecF × VecF) :=
  if idpEpsSqrt < |ann 0 + ann 1 + ann 2| then .fail "bad ann"
  else if idpEpsSqrt < |abb 0 + abb 1 + abb 2| then .fail "bad abb"
  else if normF (mToODirF abb r) = .num 0 then .undef "normalisation of a zero direction"
  else
    (planeF ann r).bind fun m0 =>
      if normF m0 = .num 0 then .undef "normalisation of a zero normal"
      else if (Fl.num idpEpsSqrt).lt (dotF (alignF ann (normalizeF m0)) (normalizeF (mToODirF abb r))).abs then
        .fail "internal error"
      else .ok (alignF ann (normalizeF m0), normalizeF (mToODirF abb r))

/-- ECMech_slipgeom.h:341-424: the tables; the in-plane lengths are roots of 1 - m[2]^2 -/
noncomputable def hcpMSF (r : Fl) : Out ((Fin 24 → VecF) × (Fin 24 → VecF)) :=
  (millerF ![1, 0, -1, 1] ![1, -2, 1, 0] r).bind fun ya =>
    (millerF ![1, 0, -1, 1] ![-1, -1, 2, 3] r).bind fun y1 =>
      let o : Fl := .num 0
      let h : Fl := .num halfsqr3
      let a := ya.1; let b := y1.1; let s := ya.2; let t := y1.2
      let ap := (Fl.num 1 - a 2 * a 2).sqrt
      let bp := (Fl.num 1 - b 2 * b 2).sqrt
      let tp := (Fl.num 1 - t 2 * t 2).sqrt
      .ok (![![o, o, .num 1], ![o, o, .num 1], ![o, o, .num 1],
          ![-h, .num (1/2), o], ![-h, -.num (1/2), o], ![o, -.num 1, o],
          ![a 0, a 1, a 2], ![a 0, -a 1, -a 2], ![a 0, a 1, -a 2], ![-a 0, a 1, -a 2], ![o, ap, -a 2], ![o, -ap, -a 2],
          ![b 0, b 1, b 2], ![b 0, -b 1, -b 2], ![b 0, b 1, -b 2], ![o, bp, -b 2], ![-b 0, b 1, -b 2],
          ![-b 0, -b 1, -b 2], ![o, -bp, -b 2], ![o, bp, b 2], ![-b 0, b 1, b 2], ![-b 0, -b 1, b 2], ![b 0, -b 1, b 2],
          ![o, -bp, b 2]],
        ![![.num (1/2), h, o], ![.num (1/2), -h, o], ![.num 1, o, o],
          ![.num (1/2), h, o], ![.num (1/2), -h, o], ![.num 1, o, o],
          ![s 0, s 1, o], ![s 0, -s 1, o], ![-s 0, -s 1, o], ![-s 0, s 1, o], ![-.num 1, o, o], ![.num 1, o, o],
          ![t 0, t 1, t 2], ![t 0, -t 1, -t 2], ![-tp, o, -t 2], ![t 0, t 1, -t 2], ![-t 0, t 1, -t 2], ![tp, o, -t 2],
          ![-t 0, -t 1, -t 2], ![-t 0, t 1, t 2], ![tp, o, t 2], ![-t 0, -t 1, t 2], ![-tp, o, t 2], ![t 0, -t 1, t 2]])

/-- ECMech_slipgeom.h:20-26: the check of fillFromMS; given back are the normals and directions, of whose products the tables
    consist (lines 28-45) -/
noncomputable def fillF {n : ℕ} (m s : Fin n → VecF) : Out ((Fin n → VecF) × (Fin n → VecF)) :=
  if ∃ i, (Fl.num idpEpsSqrt).lt (dotF (m i) (s i)).abs then .fail "internal error" else .ok (m, s)

/-- ECMech_slipgeom.h:333-430 SlipGeomHCPaBRYcaY1::setParams -/
noncomputable def slipGeomHCPF (r : Fl) : Out ((Fin 24 → VecF) × (Fin 24 → VecF)) :=
  (hcpMSF r).bind fun ms => fillF ms.1 ms.2

end Ecm
