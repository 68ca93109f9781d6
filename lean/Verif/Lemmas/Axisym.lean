/- One step of axisymmetric extension along the axis of the lattice, with a spin about that axis: the
   unknowns are known in closed form up to one scalar equation. -/
import Verif.Lemmas.Response
import Mathlib.Analysis.SpecialFunctions.Trigonometric.Bounds

namespace Ecm

/-- unknowns with elastic strain `E` in the axial component and rotation increment `φ` about the axis -/
noncomputable def axisX (E φ : ℝ) : Vec 8 :=
  block8 ![0, E / eScale, 0, 0, 0] ![0, 0, φ / rScale]

theorem eScale_ne : eScale ≠ 0 := by norm_num [eScale]
theorem rScale_ne : rScale ≠ 0 := by norm_num [rScale]

theorem vecNorm_axis {φ : ℝ} (h : 0 ≤ φ) : vecNorm (![0, 0, φ] : Vec 3) = φ := by
  unfold vecNorm
  have : (∑ i, (![0, 0, φ] : Vec 3) i * (![0, 0, φ] : Vec 3) i) = φ ^ 2 := by
    simp [Fin.sum_univ_three]; ring
  rw [this, Real.sqrt_sq h]

theorem vecNorm_unit1 : vecNorm (![0, 1, 0, 0, 0] : Vec 5) = 1 := by
  unfold vecNorm
  have : (∑ i, (![0, 1, 0, 0, 0] : Vec 5) i * (![0, 1, 0, 0, 0] : Vec 5) i) = 1 := by
    simp [Fin.sum_univ_five]
  rw [this, Real.sqrt_one]

theorem emapToQuat_axis {φ : ℝ} (h : idpTinySqrt < φ) :
    emapToQuat ![0, 0, φ] = ![Real.cos (φ / 2), 0, 0, Real.sin (φ / 2)] := by
  have h0 : 0 < φ := idpTinySqrt_pos.trans h
  unfold emapToQuat
  rw [vecNorm_axis h0.le]
  simp only [if_pos h]
  ext i
  fin_cases i <;> simp [invToQuat, h0.ne'] <;> norm_num [div_eq_mul_inv]

namespace Updst
variable {n : ℕ} (P : Updst n)

theorem xiF_axis (E φ : ℝ) : xiF (axisX E φ) = ![0, 0, φ] := by
  ext i
  fin_cases i <;> simp [xiF, vecsVxa, axisX, rScale_ne, mul_div_cancel₀]

theorem eF_axis (hN : P.eN = 0) (E φ : ℝ) : P.eF (axisX E φ) = ![0, E, 0, 0, 0] := by
  ext i
  fin_cases i <;> simp [eF, vecsVxa, vecsVapb, axisX, eScale_ne, mul_div_cancel₀, hN]

theorem edot_axis (E φ : ℝ) : P.edot (axisX E φ) = ![0, E / P.dt, 0, 0, 0] := by
  ext i
  fin_cases i <;> simp [edot, vecsVxa, vecsVsa, axisX, eScale_ne, mul_div_cancel₀, dtRi]
  ring

theorem cQuat_axis (hc : P.cN = ![1, 0, 0, 0]) {φ : ℝ} (h : idpTinySqrt < φ) (E : ℝ) :
    P.cQuat (axisX E φ) = ![Real.cos (φ / 2), 0, 0, Real.sin (φ / 2)] := by
  unfold cQuat
  rw [xiF_axis, emapToQuat_axis h, hc]
  ext i
  fin_cases i <;> simp [getCQuat, quatProd]

/-- the axial component is not changed by a rotation about the axis -/
theorem rot_axis {c s : ℝ} (h : c ^ 2 + s ^ 2 = 1) :
    vecsVMTa (getRotMatVecd (quatToTensor ![c, 0, 0, s])) ![0, 1, 0, 0, 0] = ![0, 1, 0, 0, 0] := by
  have e : c * c + s * s = 1 := by nlinarith
  ext i
  fin_cases i <;>
    simp [vecsVMTa, Fin.sum_univ_five, getRotMatVecd, quatToTensor, e]
  norm_num

theorem spin_axis {c s : ℝ} (h : c ^ 2 + s ^ 2 = 1) (w : ℝ) :
    vecsVMTa (quatToTensor ![c, 0, 0, s]) ![0, 0, w] = ![0, 0, w] := by
  have e : c * c + s * s = 1 := by nlinarith
  ext i
  fin_cases i <;> simp [vecsVMTa, Fin.sum_univ_three, quatToTensor, e]

theorem m35_axis (E F : ℝ) (i : Fin 3) : vecsVMa (m35 ![0, E, 0, 0, 0]) ![0, F, 0, 0, 0] i = 0 := by
  fin_cases i <;> simp [vecsVMa, Fin.sum_univ_five, m35]

theorem aVri_one (hv : P.detV = 1) : P.aVri = 1 := by
  simp [aVri, aV, hv]

/-- the axial stress; the volume is unchanged and there is no internal energy -/
theorem taua_axis (hN : P.eN = 0) (hv : P.detV = 1) (he : P.eVref = 0) (E φ : ℝ) (s : Fin n) :
    P.taua (axisX E φ) s = P.el.kDiag 1 * E * P.geom.P 1 s := by
  unfold taua elastNEtoT
  rw [P.eF_axis hN, P.aVri_one hv, he]
  cases h : P.el <;>
    simp [vecsVaTM, Fin.sum_univ_five, Elast.eval, vecsVxa, aV, hv]

/-- the residual vanishes at the axial point if the rates of slip balance there -/
theorem resid_axis (hN : P.eN = 0) (hc : P.cN = ![1, 0, 0, 0]) (hd : P.dSm = ![0, 1, 0, 0, 0])
    {w : ℝ} (hw : P.wSm = ![0, 0, w]) (hv : P.detV = 1) (E : ℝ)
    (hφ : idpTinySqrt < P.dt * w)
    (hP : ∀ i, ∑ s, P.geom.P i s * P.gdot (axisX E (P.dt * w)) s = if i = 1 then 1 - E / P.dt else 0)
    (hQ : ∀ i, ∑ s, P.geom.Q i s * P.gdot (axisX E (P.dt * w)) s = 0) :
    P.resid (axisX E (P.dt * w)) = 0 := by
  have hq := P.cQuat_axis hc hφ E
  have hcs := Real.cos_sq_add_sin_sq (P.dt * w / 2)
  have hE : ∀ i, P.residE (axisX E (P.dt * w)) i = 0 := by
    intro i
    have h1 : vecsVMa P.geom.P (P.gdot (axisX E (P.dt * w))) i = if i = 1 then 1 - E / P.dt else 0 := by
      rw [← hP i]; rfl
    unfold residE qr5x5 cMatx
    rw [hq, hd, rot_axis hcs, h1, P.edot_axis, P.aVri_one hv]
    fin_cases i <;> simp
  have hR : ∀ i, P.residR (axisX E (P.dt * w)) i = 0 := by
    intro i
    have h1 : vecsVMa P.geom.Q (P.gdot (axisX E (P.dt * w))) i = 0 := by rw [← hQ i]; rfl
    unfold residR cMatx
    rw [hq, hw, spin_axis hcs, h1, P.edot_axis, P.eF_axis hN, m35_axis, xiF_axis]
    fin_cases i <;> simp
  funext k
  refine forall_fin8 (p := fun k => P.resid (axisX E (P.dt * w)) k = 0) (fun i => ?_) (fun i => ?_) k
  · simp [resid, hE]
  · simp [resid, hR]

end Updst

/-! ### Slip systems of cubic lattices with respect to the axis -/

/-- twice the axial component of the FCC slip systems -/
def fccA : Vec 12 := ![-1, 1, 0, -1, 1, 0, -1, 1, 0, -1, 1, 0]

theorem fcc_P1 (s : Fin 12) : (slipPQ fccM fccS).P 1 s = fccA s / 2 := by
  fin_cases s <;> simp [slipPQ, fccM, fccS, fccA, matToP, vecsMsymm, vecsMaTb, symmToVecd] <;> sqr_ring <;> simp

theorem fcc_PA (i : Fin 5) : ∑ s, (slipPQ fccM fccS).P i s * fccA s = if i = 1 then 4 else 0 := by
  fin_cases i <;> simp [Fin.sum_univ_succ, slipPQ, fccM, fccS, fccA, matToP, vecsMsymm, vecsMaTb, symmToVecd] <;> sqr_ring

theorem fcc_QA (i : Fin 3) : ∑ s, (slipPQ fccM fccS).Q i s * fccA s = 0 := by
  fin_cases i <;> simp [Fin.sum_univ_succ, slipPQ, fccM, fccS, fccA, matToQ, vecsMskew, vecsMaTb, skewToVeccp]

theorem bcc_P1 (s : Fin 12) : (slipPQ bccBaseM bccBaseS).P 1 s = fccA s / 2 := by
  fin_cases s <;> simp [slipPQ, bccBaseM, bccBaseS, fccA, matToP, vecsMsymm, vecsMaTb, symmToVecd] <;> sqr_ring <;> simp

theorem bcc_PA (i : Fin 5) : ∑ s, (slipPQ bccBaseM bccBaseS).P i s * fccA s = if i = 1 then 4 else 0 := by
  fin_cases i <;> simp [Fin.sum_univ_succ, slipPQ, bccBaseM, bccBaseS, fccA, matToP, vecsMsymm, vecsMaTb, symmToVecd] <;> sqr_ring

theorem bcc_QA (i : Fin 3) : ∑ s, (slipPQ bccBaseM bccBaseS).Q i s * fccA s = 0 := by
  fin_cases i <;> simp [Fin.sum_univ_succ, slipPQ, bccBaseM, bccBaseS, fccA, matToQ, vecsMskew, vecsMaTb, skewToVeccp]

theorem fccA_cases (s : Fin 12) : fccA s = 1 ∨ fccA s = -1 ∨ fccA s = 0 := by
  fin_cases s <;> simp [fccA]

/-- an odd law at the resolved stresses of cubic lattices -/
theorem fcc_odd {f : ℝ → ℝ} {E G : ℝ} (h1 : f E = G) (h2 : f (-E) = -G) (h3 : f 0 = 0) (s : Fin 12) :
    f (2 * E * (fccA s / 2)) = fccA s * G := by
  rcases fccA_cases s with h | h | h <;> rw [h]
  · rw [show 2 * E * (1 / 2) = E by ring, h1, one_mul]
  · rw [show 2 * E * (-1 / 2) = -E by ring, h2, neg_one_mul]
  · rw [show 2 * E * (0 / 2) = 0 by ring, h3, zero_mul]

theorem fccA_abs : ∑ s, |fccA s| = 8 := by
  simp [Fin.sum_univ_succ, fccA]; norm_num

end Ecm
