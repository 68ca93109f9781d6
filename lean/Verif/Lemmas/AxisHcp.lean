/- HCP slip systems with respect to the axis of the lattice. -/
import Verif.Lemmas.Axisym
import Verif.Lemmas.Hcp

namespace Ecm

/-- the systems with a direction out of the basal plane -/
def hcpA : Vec 24 := ![0, 0, 0, 0, 0, 0, 0, 0, 0, 0, 0, 0, 1, 1, 1, 1, 1, 1, 1, 1, 1, 1, 1, 1]

/-- axial component of these systems -/
noncomputable def hcpP (r : ℝ) : ℝ := sqr3b2 * (hu r * (Real.sqrt 3 / 2)) * (hw r * r)

theorem hcp_P1 (r : ℝ) (s : Fin 24) : (slipPQ (hcpMx r) (hcpSx r)).P 1 s = hcpP r * hcpA s := by
  fin_cases s <;> simp [slipPQ, hcpMx, hcpSx, hcpM, hcpS, hcpA, hcpP, hcpNormal, hcpDirA, hcpDirCA, matToP, vecsMsymm,
    vecsMaTb, symmToVecd] <;> sqr_ring <;> simp

theorem hcp_PA (r : ℝ) (i : Fin 5) :
    ∑ s, (slipPQ (hcpMx r) (hcpSx r)).P i s * hcpA s = if i = 1 then 12 * hcpP r else 0 := by
  fin_cases i <;> simp [Fin.sum_univ_succ, slipPQ, hcpMx, hcpSx, hcpM, hcpS, hcpA, hcpP, hcpNormal, hcpDirA, hcpDirCA,
    matToP, vecsMsymm, vecsMaTb, symmToVecd] <;> sqr_ring

theorem hcp_QA (r : ℝ) (i : Fin 3) : ∑ s, (slipPQ (hcpMx r) (hcpSx r)).Q i s * hcpA s = 0 := by
  fin_cases i <;> simp [Fin.sum_univ_succ, slipPQ, hcpMx, hcpSx, hcpM, hcpS, hcpA, hcpNormal, hcpDirA, hcpDirCA,
    matToQ, vecsMskew, vecsMaTb, skewToVeccp] <;> sqr_ring

end Ecm
