/- Error bounds for the residual of the implicit step in floating-point arithmetic: rotated rate and spin,
   elastic spin, scale factors, sums. -/
import Verif.Lemmas.ResidTerms

namespace Ecm
open Spec Props

namespace Flt
variable {F : Flt}

namespace Run
variable {n : ℕ} {R : Run n} {x : Vec 8} {D E X K V W : ℝ}

/-- a nearly unit quaternion and the unit quaternion of the same direction -/
theorem unit_dist (q : Vec 4) (hl : 0 < len q) : vecNorm (fun i => q i / len q - q i) = |len q - 1| := by
  have e : (fun i => q i / len q - q i) = ((1 - len q) / len q) • q := by
    funext i
    simp only [Pi.smul_apply, smul_eq_mul]
    field_simp
  have hl' : len q = vecNorm q := rfl
  rw [e, vecNorm_smul, ← hl', abs_div, abs_of_pos hl, div_mul_cancel₀ _ hl.ne', abs_sub_comm]

theorem Sized.unit (h : Sized F R x D E X K V W) : 0 < len (R.cQuat F x) ∧
    qn (fun i => R.cQuat F x i / len (R.cQuat F x)) = 1 ∧
    frob (rotOf (R.cQuat F x) - R.P.cMatx x) ≤ 309 * F.w := by
  have hw := F.w_pos; have hw1 := F.w_le; have hu := F.u_nonneg; have huw := F.u_le_w; have hu1 := F.u_le
  obtain ⟨h1, h2, h3⟩ := h.quat
  have a := abs_le.1 h2
  have l0 : 0 < len (R.cQuat F x) := by linarith [a.1]
  have hq1 := qn_unit l0
  refine ⟨l0, hq1, ?_⟩
  have hl := quatToTensor_lip hq1 h3
  have d1 := vecNorm_sub_le (fun i => R.cQuat F x i / len (R.cQuat F x)) (R.cQuat F x) (R.P.cQuat x)
  have d2 : vecNorm ((fun i => R.cQuat F x i / len (R.cQuat F x)) - R.cQuat F x) ≤ 46 * F.u := by
    have := unit_dist _ l0
    exact (le_of_eq this).trans h2
  have d3 : vecNorm (R.cQuat F x - R.P.cQuat x) ≤ 57 * F.w := h1
  unfold rotOf Updst.cMatx
  linarith

theorem rate_w {q : Vec 4} (hq : |len q - 1| ≤ 46 * F.u) {d : Vec 5} (hs : vecNorm d ≤ 10 ^ 100) (i : Fin 5) :
    |F.rateLat q d i - vecsVMTa (Ecm.getRotMatVecd (rotOf q)) d i| ≤ 372 * F.w * vecNorm d + 15 * F.η := by
  have hu := F.u_nonneg; have hu1 := F.u_le
  have a := abs_le.1 hq
  have l0 : 0 < len q := by linarith [a.1]
  have hR := isRot_of_unit (qn_unit l0)
  have t1 : (rotOf q).transpose * (rotOf q).transpose.transpose = 1 := by
    rw [Matrix.transpose_transpose]; exact hR.2.1
  have t2 : (rotOf q).transpose.transpose * (rotOf q).transpose = 1 := by
    rw [Matrix.transpose_transpose]; exact hR.1
  have o := (getRotMatVecd_orth t1 t2).1
  have key := Flt.rot_err (F := F) (a := (F.getRotMatVecd (F.quatToTensor q)).transpose) o
    (Flt.computed_entries hq 0 0).1 (fun i j => by
      have := (Flt.computed_entries hq j i).2
      rw [getRotMatVecd_transpose, Matrix.transpose_apply, Matrix.transpose_apply,
        show (if i = 1 ∧ j = 1 then (len q ^ 4 - 1) / 2 else (0 : ℝ))
          = if j = 1 ∧ i = 1 then (len q ^ 4 - 1) / 2 else 0 from if_congr and_comm rfl rfl]
      exact this) hs i
  rw [getRotMatVecd_transpose] at key
  exact key

/-- the imposed rate in the lattice frame -/
theorem Sized.er_dLat (h : Sized F R x D E X K V W) (i : Fin 5) :
    F.Er (R.dLat F x i) (vecsVMTa (R.P.qr5x5 x) R.P.dSm i) (1000 * V) V := by
  have hw := F.w_pos; have hw1 := F.w_le; have hu := F.u_nonneg; have huw := F.u_le_w
  obtain ⟨l0, hq1, hf⟩ := h.unit
  obtain ⟨h1, h2, h3⟩ := h.quat
  have v0 := h.V20.pos
  have hη := F.η_le_w (h.V20.mono (by norm_num))
  have hwV : 0 < F.w * V := mul_pos hw v0
  have key := rate_w h2 (h.hV.trans (h.V20.2.trans (by norm_num))) i
  have lip := rot_dev_lip hq1 h3 R.P.dSm
  have lipi := (abs_le_vecNorm' _ i).trans lip
  have t1 : 372 * F.w * vecNorm R.P.dSm ≤ 372 * (F.w * V) := by
    have := mul_le_mul_of_nonneg_left h.hV hw.le
    linarith
  have t2 : 2 * frob (rotOf (R.cQuat F x) - R.P.cMatx x) * vecNorm R.P.dSm ≤ 618 * (F.w * V) := by
    have := mul_le_mul hf h.hV (vecNorm_nonneg _) (by positivity)
    linarith
  refine ⟨?_, ?_⟩
  · refine (abs_le_vecNorm' _ i).trans ?_
    refine le_trans (le_of_eq ?_) h.hV
    obtain ⟨S, hS, hSd⟩ : ∃ S : T3, IsDev S ∧ symmToVecd S = R.P.dSm :=
      ⟨vecdToSymm R.P.dSm, vecdToSymm_isDev _, symmToVecd_vecdToSymm _⟩
    have hR : IsRot (R.P.cMatx x) := isRot_of_unit h3
    have e : vecsVMTa (R.P.qr5x5 x) R.P.dSm
        = symmToVecd ((R.P.cMatx x).transpose * S * R.P.cMatx x) := by
      rw [← hSd]; exact vecsVMTa_rot h3 hS
    rw [e, ← hSd, ← frob_vecd hS, ← frob_vecd (isDev_conjT hR.1 hS)]
    have hR2 : R.P.cMatx x * (R.P.cMatx x).transpose = 1 := hR.1
    rw [frob_mul_rot hR2, ← frob_transpose, Matrix.transpose_mul, Matrix.transpose_transpose,
      frob_mul_rot hR2, frob_transpose]
  · have tr := abs_add_le (R.dLat F x i - vecsVMTa (Ecm.getRotMatVecd (rotOf (R.cQuat F x))) R.P.dSm i)
      (vecsVMTa (Ecm.getRotMatVecd (rotOf (R.cQuat F x))) R.P.dSm i - vecsVMTa (R.P.qr5x5 x) R.P.dSm i)
    rw [sub_add_sub_cancel] at tr
    have k1 : |R.dLat F x i - vecsVMTa (Ecm.getRotMatVecd (rotOf (R.cQuat F x))) R.P.dSm i|
        ≤ 372 * F.w * vecNorm R.P.dSm + 15 * F.η := key
    have k2 : |vecsVMTa (Ecm.getRotMatVecd (rotOf (R.cQuat F x))) R.P.dSm i - vecsVMTa (R.P.qr5x5 x) R.P.dSm i|
        ≤ 2 * frob (rotOf (R.cQuat F x) - R.P.cMatx x) * vecNorm R.P.dSm := lipi
    linarith

theorem abs_le_frob (A : T3) (i j : Fin 3) : |A i j| ≤ frob A := by
  refine Real.abs_le_sqrt ?_
  have h1 : A i j ^ 2 ≤ ∑ j, A i j * A i j := by
    rw [sq]
    exact Finset.single_le_sum (f := fun j => A i j * A i j) (fun j _ => mul_self_nonneg _) (Finset.mem_univ j)
  exact h1.trans (Finset.single_le_sum (f := fun i => ∑ j, A i j * A i j)
    (fun i _ => Finset.sum_nonneg fun j _ => mul_self_nonneg _) (Finset.mem_univ i))

theorem rot_entry {A : T3} (hA : IsRot A) (i j : Fin 3) : |A i j| ≤ 1 := by
  have h := congrFun (congrFun hA.1 i) i
  rw [Matrix.mul_apply, Fin.sum_univ_three] at h
  simp only [Matrix.transpose_apply, Matrix.one_apply_eq] at h
  rw [← sq_le_one_iff_abs_le_one]
  have := mul_self_nonneg (A i 0); have := mul_self_nonneg (A i 1); have := mul_self_nonneg (A i 2)
  fin_cases j <;> simp only [Fin.zero_eta, Fin.mk_one, Fin.reduceFinMk] <;> nlinarith

theorem tensor_scale (q : Vec 4) (hl : 0 < len q) (i j : Fin 3) :
    Ecm.quatToTensor q i j = len q ^ 2 * rotOf q i j := by
  unfold rotOf
  have h := hl.ne'
  fin_cases i <;> fin_cases j <;> simp [Ecm.quatToTensor] <;> field_simp

/-- the computed matrix of the orientation -/
theorem Sized.er_cMatx (h : Sized F R x D E X K V W) (i j : Fin 3) :
    F.Er (F.quatToTensor (R.cQuat F x) i j) (R.P.cMatx x i j) 410 1 := by
  have hw := F.w_pos; have hw1 := F.w_le; have hu := F.u_nonneg; have huw := F.u_le_w; have hu1 := F.u_le
  obtain ⟨l0, hq1, hf⟩ := h.unit
  obtain ⟨h1, h2, h3⟩ := h.quat
  have a := abs_le.1 h2
  refine ⟨rot_entry (isRot_of_unit h3) i j, ?_⟩
  have n1 := (near_quatToTensor (F := F) (q := R.cQuat F x) (by linarith [a.2]) i j).2
  have n2 : |Ecm.quatToTensor (R.cQuat F x) i j - rotOf (R.cQuat F x) i j| ≤ 92.2 * F.w := by
    rw [tensor_scale _ l0, show len (R.cQuat F x) ^ 2 * rotOf (R.cQuat F x) i j - rotOf (R.cQuat F x) i j
      = (len (R.cQuat F x) - 1) * ((len (R.cQuat F x) + 1) * rotOf (R.cQuat F x) i j) by ring, abs_mul, abs_mul]
    have r1 : |rotOf (R.cQuat F x) i j| ≤ 1 := rot_entry (isRot_of_unit hq1) i j
    have r2 : |len (R.cQuat F x) + 1| ≤ 2.001 := by
      rw [abs_of_pos (by linarith)]; linarith [a.2]
    have r3 := mul_le_mul r2 r1 (abs_nonneg _) (by norm_num)
    have r4 := mul_le_mul h2 r3 (by positivity) (by positivity)
    linarith
  have n3 : |rotOf (R.cQuat F x) i j - R.P.cMatx x i j| ≤ 309 * F.w := (abs_le_frob _ i j).trans hf
  have t1 := abs_sub_le (F.quatToTensor (R.cQuat F x) i j) (Ecm.quatToTensor (R.cQuat F x) i j)
    (rotOf (R.cQuat F x) i j)
  have t2 := abs_sub_le (F.quatToTensor (R.cQuat F x) i j) (rotOf (R.cQuat F x) i j) (R.P.cMatx x i j)
  linarith

/-- the imposed spin in the lattice frame -/
theorem Sized.er_wLat (h : Sized F R x D E X K V W) (i : Fin 3) :
    F.Er (R.wLat F x i) (vecsVMTa (R.P.cMatx x) R.P.wSm i) (1250 * W) (3 * W) := by
  have w0 := h.W20.pos
  have := Er.dot (by norm_num : 3 ≤ 30) (fun j => h.er_cMatx j i)
    (fun j => Er.exact (F := F) ((abs_le_vecNorm' R.P.wSm j).trans h.hW)) (by norm_num) (by linarith)
    (by rw [one_mul]; exact h.W20.mono (by norm_num))
  refine this.mono ?_ ?_
  · push_cast; linarith
  · push_cast; linarith

theorem Er.half {a y e m : ℝ} (h : F.Er a y e m) (he : e ≤ 1900 * m) (hm : Pw m 100) :
    F.Er (F.fl (a * (1 / 2))) (y * (1 / 2)) (1 / 2 * e + 1.01 * (1 / 2 * m)) (1 / 2 * m) := by
  have := h.scale (1 / 2) (m := 1 / 2) (le_of_eq (abs_of_pos (by norm_num))) he
    (((Pw.of_num 1 (by norm_num) (by norm_num) : Pw (1 / 2 : ℝ) 1).mul hm).mono (by norm_num))
  rwa [mul_comm (1 / 2) a, mul_comm (1 / 2) y] at this

theorem er_m35 {b y : Vec 5} {N : ℝ} (hN : Pw N 25) (hb : ∀ i, F.Er (b i) (y i) (3.03 * N) N) (i : Fin 3) (j : Fin 5) :
    F.Er (F.m35 b i j) (Ecm.m35 y i j) (8.1 * N) (1.4 * N) := by
  have n0 := hN.pos
  have hl : F.Er F.halfsqr3 Ecm.halfsqr3 1 0.87 := by
    refine near_lit C46_literals.2.2.2.2.2.2.2.2.1 ?_ (by norm_num)
    rw [litHalfsqr3, abs_of_pos (by norm_num)]; norm_num
  have h1 : ∀ {a z : ℝ}, F.Er a z (3.03 * N) N → F.Er (F.fl (a * (1 / 2))) (z * (1 / 2)) (2.1 * N) (1 / 2 * N) :=
    fun {a z} ha => (Er.half ha (by linarith) (hN.mono (by norm_num))).mono (by linarith) le_rfl
  have p87 : Pw (0.87 : ℝ) 1 := Pw.of_num 1 (by norm_num) (by norm_num)
  have h2 : ∀ {a z : ℝ}, F.Er a z (3.03 * N) N →
      F.Er (F.fl (F.halfsqr3 * a)) (Ecm.halfsqr3 * z) (4.6 * N) (0.87 * N) :=
    fun {a z} ha => (hl.mul ha (by norm_num) (by linarith) ((p87.mul hN).mono (by norm_num))).mono
      (by linarith) le_rfl
  have h3 : ∀ {a z : ℝ}, F.Er a z (3.03 * N) N →
      F.Er (F.fl (a * F.halfsqr3)) (z * Ecm.halfsqr3) (4.6 * N) (0.87 * N) :=
    fun {a z} ha => by rw [mul_comm a, mul_comm z]; exact h2 ha
  have p137 : Pw (1 / 2 * N + 0.87 * N) 190 := by
    have := ((Pw.of_num 1 (by norm_num) (by norm_num) : Pw (1.37 : ℝ) 1).mul hN).mono (by norm_num : 1 + 25 ≤ 190)
    rwa [show 1 / 2 * N + 0.87 * N = 1.37 * N by ring]
  have p137' : Pw (0.87 * N + 1 / 2 * N) 190 := by rwa [add_comm]
  have up1 : ∀ {a z : ℝ}, F.Er a z (2.1 * N) (1 / 2 * N) → F.Er a z (8.1 * N) (1.4 * N) :=
    fun {a z} h => h.mono (by linarith) (by linarith)
  have up2 : ∀ {a z : ℝ}, F.Er a z (4.6 * N) (0.87 * N) → F.Er a z (8.1 * N) (1.4 * N) :=
    fun {a z} h => h.mono (by linarith) (by linarith)
  have up3 : ∀ {a z : ℝ}, F.Er a z (3.03 * N) N → F.Er a z (8.1 * N) (1.4 * N) :=
    fun {a z} h => h.mono (by linarith) (by linarith)
  have a1 : F.Er (F.fl (F.fl (-b 0 * (1 / 2)) - F.fl (F.halfsqr3 * b 1))) (-y 0 * (1 / 2) - Ecm.halfsqr3 * y 1)
      (8.1 * N) (1.4 * N) :=
    ((h1 (hb 0).neg).sub (h2 (hb 1)) (by linarith) (by linarith) p137).mono (by linarith) (by linarith)
  have a2 : F.Er (F.fl (F.fl (F.halfsqr3 * b 1) - F.fl (b 0 * (1 / 2)))) (Ecm.halfsqr3 * y 1 - y 0 * (1 / 2))
      (8.1 * N) (1.4 * N) :=
    ((h2 (hb 1)).sub (h1 (hb 0)) (by linarith) (by linarith) p137').mono (by linarith) (by linarith)
  have z : F.Er 0 0 (8.1 * N) (1.4 * N) :=
    (Er.exact (F := F) (x := 0) (m := 1.4 * N) (by rw [abs_zero]; linarith)).mono (by linarith) le_rfl
  fin_cases i <;> fin_cases j
  · exact up1 (h1 (hb 4))
  · exact up2 (h3 (hb 4))
  · exact up1 (h1 (hb 3).neg)
  · exact up1 (h1 (hb 2))
  · exact a1
  · exact up1 (h1 (hb 3))
  · exact up2 (h3 (hb 3).neg)
  · exact up1 (h1 (hb 4))
  · exact a2
  · exact up1 (h1 (hb 2).neg)
  · exact up3 (hb 2).neg
  · exact z
  · exact up3 (hb 0)
  · exact up1 (h1 (hb 4).neg)
  · exact up1 (h1 (hb 3))

theorem Sized.J60 (h : Sized F R x D E X K V W) : Pw ((D + E) * (D * (1 / R.P.dt))) 61 := h.N20.mul h.r20

/-- the part of the spin that comes from the elastic strain -/
theorem Sized.er_eeSpin (h : Sized F R x D E X K V W) (L : Libm F) (i : Fin 3) :
    F.Er (R.eeSpin L x i) (R.P.eeFac * vecsVMa (Ecm.m35 (R.P.eF x)) (R.P.edot x) i)
      (160 * ((D + E) * (D * (1 / R.P.dt)))) (6 * ((D + E) * (D * (1 / R.P.dt)))) := by
  have j0 := h.J60.pos
  have n0 := h.N20.pos
  have r0 := h.r20.pos
  have hA := h.er_aVri L
  have f1 : F.Er (F.fl ((1 / 2) * R.aVri L)) (1 / 2 * R.P.aVri) 2.94 0.65 :=
    (hA.scale (1 / 2) (m := 1 / 2) (le_of_eq (abs_of_pos (by norm_num))) (by norm_num)
      (Pw.of_num 190 (by norm_num) (by norm_num))).mono (by norm_num) (by norm_num)
  have f2 : F.Er (R.eeFac L) R.P.eeFac 7.66 0.85 :=
    (f1.mul hA (by norm_num) (by norm_num) (Pw.of_num 190 (by norm_num) (by norm_num))).mono
      (by norm_num) (by norm_num)
  have d1 := Er.dot (by norm_num : 5 ≤ 30) (er_m35 (h.N20.mono (by norm_num)) h.er_eF i) h.er_edot
    (by linarith) (by linarith) (by
      have := (Pw.of_num 1 (by norm_num) (by norm_num) : Pw (1.4 : ℝ) 1).mul h.J60
      rw [mul_assoc]; exact this.mono (by norm_num))
  set J := (D + E) * (D * (1 / R.P.dt)) with hJ
  have d2 : F.Er (F.mulVec (F.m35 (R.eF F x)) (R.edot F x) i) (vecsVMa (Ecm.m35 (R.P.eF x)) (R.P.edot x) i)
      (117 * J) (7 * J) := by
    refine d1.mono ?_ ?_
    · push_cast; linarith
    · push_cast; linarith
  have d3 := f2.mul d2 (by norm_num) (by linarith) (by
    have := (Pw.of_num 1 (by norm_num) (by norm_num) : Pw (0.85 * 7 : ℝ) 1).mul h.J60
    rw [← mul_assoc]; exact this.mono (by norm_num))
  exact d3.mono (by linarith) (by linarith)

end Run
end Flt
end Ecm
