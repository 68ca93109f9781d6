/-
  Model of ThermoElastNCubic (src/ecmech/ECMech_evptn.h:48-214) and ThermoElastNHexag
  (src/ecmech/ECMech_evptn.h:231-403).  Real arithmetic.
-/
import Verif.Model.Util
import Verif.Model.Outcome
import Mathlib.Analysis.SpecialFunctions.Exp

namespace Ecm
open Classical

/-- the two thermo-elastic classes with their parameters in the order of setParams
    (ECMech_evptn.h:64-66 and 247-253) -/
inductive Elast
  | cubic (c11 c12 c44 : ℝ)
  | hexag (c11 c12 c13 c33 c44 g : ℝ)

/-- _K_diag, ECMech_evptn.h:70-74 and 257-261 -/
noncomputable def Elast.kDiag : Elast → Vec 5
  | .cubic c11 c12 c44 => ![c11 - c12, c11 - c12, 2 * c44, 2 * c44, 2 * c44]
  | .hexag c11 c12 c13 c33 c44 _ =>
    ![c11 - c12, c11 * (1 / 3) + c12 * (1 / 3) - 4 / 3 * c13 + 2 / 3 * c33, c11 - c12,
      2 * c44, 2 * c44]

/-- _K_sdax3, ECMech_evptn.h:263; the cubic class has no such member, zero here -/
noncomputable def Elast.kSdax3 : Elast → ℝ
  | .cubic _ _ _ => 0
  | .hexag c11 c12 c13 c33 _ _ => sqr2 * (-c11 - c12 + c13 + c33) * (1 / 3)

/-- _g_vecd2, ECMech_evptn.h:253; the cubic class has no such member, zero here -/
def Elast.gVecd2 : Elast → ℝ
  | .cubic _ _ _ => 0
  | .hexag _ _ _ _ _ g => g

/-- _K_bulkMod, ECMech_evptn.h:75-76 and 262-264 -/
noncomputable def Elast.kBulkMod : Elast → ℝ
  | .cubic c11 c12 _ => 1 / 3 * (c11 + 2 * c12)
  | .hexag c11 c12 c13 c33 _ _ =>
    1 / 3 * (2 / 3 * c11 + 2 / 3 * c12 + 4 / 3 * c13 + c33 * (1 / 3))

/-- _K_gmod, ECMech_evptn.h:77 and 267 -/
noncomputable def Elast.kGmod (el : Elast) : ℝ :=
  match el with
  | .cubic c11 c12 c44 => (2 * c11 - 2 * c12 + 6 * c44) * 0.2
  | .hexag _ _ _ _ _ _ => 0.5 * 0.2 * vecsssum el.kDiag

/-- ECMech_evptn.h:99-111 (cubic) and 293-316 (hexagonal) eval; the temperature argument is ignored
    by the code -/
noncomputable def Elast.eval (el : Elast) (Ee : Vec 6) (pEos eVref : ℝ) : Vec 6 :=
  let lnJ := sqr3 * Ee 5
  let J := Real.exp lnJ
  let TsBulk := -sqr3 * J * pEos
  match el with
  | .cubic _ _ _ =>
    ![el.kDiag 0 * Ee 0, el.kDiag 1 * Ee 1, el.kDiag 2 * Ee 2, el.kDiag 3 * Ee 3, el.kDiag 4 * Ee 4,
      TsBulk]
  | .hexag _ _ _ _ _ _ =>
    ![el.kDiag 0 * Ee 0,
      el.kDiag 1 * Ee 1 + el.kSdax3 * Ee 5 + J * (-el.gVecd2 * eVref),
      el.kDiag 2 * Ee 2, el.kDiag 3 * Ee 3, el.kDiag 4 * Ee 4,
      TsBulk + el.kSdax3 * Ee 1]

/-- ECMech_evptn.h:123-134 and 323-334 multDTDepsT -/
noncomputable def Elast.multDTDepsT {p : ℕ} (el : Elast) (A : Mat 5 p) (aVri : ℝ) : Mat 5 p :=
  fun i j => el.kDiag i * aVri * A i j

/-- ECMech_evptn.h:138-145 and 338-345 getCauchy -/
def Elast.getCauchy (_ : Elast) (T : Vec 6) (detVi : ℝ) : Vec 6 := fun i => detVi * T i

/-- ECMech_evptn.h:161-187 and 349-373 multCauchyDif.  Row-major 6x6 result; the columns 0..4 of rows
    0..4 come from the first loop, row 5 from the second, column 5 is set to zero. -/
noncomputable def Elast.multCauchyDif (el : Elast) (A : Mat 5 5) (detVi aVri : ℝ) : Mat 6 6 :=
  fun i j =>
    if hj : j.val < 5 then
      if hi : i.val < 5 then detVi * aVri * el.kDiag ⟨i, hi⟩ * A ⟨i, hi⟩ ⟨j, hj⟩
      else match el with
        | .cubic _ _ _ => 0
        | .hexag _ _ _ _ _ _ => detVi * aVri * el.kSdax3 * A 1 ⟨j, hj⟩
    else 0

/-- ECMech_evptn.h:191-196 and 377-382 getBulkMod -/
noncomputable def Elast.getBulkMod (el : Elast) : Out ℝ :=
  if el.kBulkMod ≤ 0 then .fail "bulk modulus negative -- not initialized?" else .ok el.kBulkMod

/-- ECMech_evptn.h:200-208 and 386-394 getGmod -/
noncomputable def Elast.getGmod (el : Elast) : Out ℝ :=
  if el.kGmod ≤ 0 then .fail "effective shear modulus negative -- not initialized?"
  else .ok el.kGmod

end Ecm
