/- Error bounds for the terms of the residual of the implicit step in floating-point arithmetic. -/
import Verif.Lemmas.ResidParts

namespace Ecm
open Spec Props

namespace Pw
/-- a smaller number that may vanish -/
theorem add0 {m p : ℝ} {j : ℕ} (h : Pw m j) (h0 : 0 ≤ p) (h1 : p ≤ 10 ^ j) : Pw (m + p) (j + 1) := by
  refine ⟨?_, ?_⟩
  · have := (h.mono (by omega : j ≤ j + 1)).1
    linarith
  · have := h.2
    have h1 : (0:ℝ) < 10 ^ j := by positivity
    rw [pow_succ]; linarith
end Pw

namespace Flt
variable {F : Flt}

theorem Rel.mul_right {a x k : ℝ} (h : F.Rel a x k) (y : ℝ) : F.Rel (a * y) (x * y) k := by
  unfold Rel at *
  rw [← sub_mul, abs_mul, abs_mul, ← mul_assoc]
  exact mul_le_mul_of_nonneg_right h (abs_nonneg _)

namespace Run
variable {n : ℕ} (R : Run n)

/-- magnitudes of what enters the residual: the change of elastic strain (at most `D`), the elastic strain
    before the step (`E`), the rotation increment (`X`), the elastic moduli (`K`), imposed rate and spin
    (`V`, `W`); the stored quaternion is the one of the problem before normalisation; the tables of the slip
    systems are right up to 20 roundoffs -/
structure Sized (F : Flt) (R : Run n) (x : Vec 8) (D E X K V W : ℝ) : Prop where
  n30 : n ≤ 30
  cubic : ∃ a b c, R.P.el = .cubic a b c
  dt : Pw R.P.dt 20
  ref : Pw R.P.adotsRef 20
  det : 1 / 2 ≤ R.P.detV ∧ R.P.detV ≤ 2
  D20 : Pw D 20
  hD : ∀ i, |Ecm.eScale * x (iE i)| ≤ D
  E0 : 0 ≤ E
  E20 : E ≤ 10 ^ 20
  hE : ∀ i, |R.P.eN i| ≤ E
  X20 : Pw X 20
  X1 : X ≤ 1 / 2
  hX : ∀ i, |Updst.xiF x i| ≤ X
  K20 : Pw K 20
  hK : ∀ i, |R.P.el.kDiag i| ≤ K
  V20 : Pw V 20
  hV : vecNorm R.P.dSm ≤ V
  W20 : Pw W 20
  hW : vecNorm R.P.wSm ≤ W
  q0 : 1 / 10 ^ 91 ≤ len R.q
  q1 : len R.q ≤ 10 ^ 100
  hq : R.P.cN = fun i => R.q i * (1 / len R.q)
  pT : ∀ i s, F.Er (R.pT i s) (R.P.geom.P i s) 20 1
  qT : ∀ i s, F.Er (R.qT i s) (R.P.geom.Q i s) 20 1

variable {R} {x : Vec 8} {D E X K V W : ℝ} (h : Sized F R x D E X K V W)
include h

theorem Sized.er_eDelta (i : Fin 5) : F.Er (eDelta F x i) (Ecm.eScale * x (iE i)) (2.02 * D) D := by
  have h1 : F.Rel F.eScale Ecm.eScale 1.01 := by
    have := Rel.round' (F := F) (Rel.refl Ecm.eScale) le_rfl (by norm_num)
      ⟨by norm_num [Ecm.eScale], by norm_num [Ecm.eScale]⟩
    exact this.mono (by norm_num)
  have h2 := ((h1.mul_right (x (iE i))).er (by norm_num) (h.hD i)).round (by linarith [h.D20.pos])
    (h.D20.mono (by norm_num))
  exact h2.mono (by linarith) le_rfl

theorem Sized.N20 : Pw (D + E) 21 := h.D20.add0 h.E0 h.E20

theorem Sized.er_eF (i : Fin 5) : F.Er (R.eF F x i) (R.P.eF x i) (3.03 * (D + E)) (D + E) := by
  have d0 := h.D20.pos
  have e0 := h.E0
  have := (h.er_eDelta i).add (Er.exact (h.hE i)) (by linarith) (by linarith) (h.N20.mono (by norm_num))
  exact this.mono (by linarith) le_rfl

theorem Sized.er_dtRi : F.Er (R.dtRi F) R.P.dtRi (1.01 * (1 / R.P.dt)) (1 / R.P.dt) :=
  (R.dtRi_rel F (h.dt.mono (by norm_num))).er (by norm_num) (le_of_eq (abs_of_pos h.dt.inv.pos))

theorem Sized.r20 : Pw (D * (1 / R.P.dt)) 40 := h.D20.mul h.dt.inv

theorem Sized.er_edot (i : Fin 5) :
    F.Er (R.edot F x i) (R.P.edot x i) (4.06 * (D * (1 / R.P.dt))) (D * (1 / R.P.dt)) := by
  have d0 := h.D20.pos
  have t0 := h.dt.inv.pos
  have dt0 := h.r20.pos
  have := (h.er_eDelta i).mul h.er_dtRi (by linarith) (by linarith) (h.r20.mono (by norm_num))
  exact this.mono (by nlinarith) le_rfl

theorem Sized.er_aVri (L : Libm F) : F.Er (R.aVri L) R.P.aVri 4.55 1.3 := by
  have hs := R.aVri_size h.det
  exact ((R.aVri_rel L h.det).er (by norm_num) (m := 1.3)
    (by rw [abs_of_pos (by linarith [hs.1])]; exact hs.2)).mono (by norm_num) le_rfl

theorem Sized.er_aedot (L : Libm F) (i : Fin 5) :
    F.Er (F.fl (R.aVri L * R.edot F x i)) (R.P.aVri * R.P.edot x i) (11.2 * (D * (1 / R.P.dt)))
      (1.3 * (D * (1 / R.P.dt))) := by
  have dt0 := h.r20.pos
  have := (h.er_aVri L).mul (h.er_edot i) (by norm_num) (by linarith)
    (((Pw.of_num 1 (by norm_num) (by norm_num) : Pw (1.3 : ℝ) 1).mul h.r20).mono (by norm_num))
  exact this.mono (by linarith) le_rfl

theorem Sized.er_stress (L : Libm F) (i : Fin 5) :
    F.Er (R.stress L x i) (R.P.elastNEtoT (R.P.eF x) i.castSucc) (12.6 * (K * (D + E))) (1.3 * (K * (D + E))) := by
  have d0 := h.N20.pos
  have k0 := h.K20.pos
  have kd : 0 < K * (D + E) := mul_pos k0 d0
  have p13 : Pw (1.3 : ℝ) 1 := Pw.of_num 1 (by norm_num) (by norm_num)
  have e : R.P.elastNEtoT (R.P.eF x) i.castSucc = R.P.el.kDiag i * (R.P.aVri * R.P.eF x i) := by
    obtain ⟨a, b, c, hc⟩ := h.cubic
    unfold Updst.elastNEtoT
    rw [hc]
    fin_cases i <;> simp [Elast.eval, vecsVxa]
  rw [e]
  have h1 := (h.er_aVri L).mul (h.er_eF i) (by norm_num) (by linarith)
    ((p13.mul h.N20).mono (by norm_num))
  have h2 : F.Er (F.fl (R.P.el.kDiag i)) (R.P.el.kDiag i) (1.01 * K) K :=
    ((Er.exact (h.hK i)).round (by linarith) (h.K20.mono (by norm_num))).mono (by linarith) le_rfl
  have h3 := h2.mul (h1.mono (e' := 9.84 * (D + E)) (by nlinarith) le_rfl) (by linarith) (by linarith)
    ((h.K20.mul (p13.mul h.N20)).mono (by norm_num))
  exact h3.mono (by nlinarith) (by linarith)

theorem Sized.er_taua (L : Libm F) (s : Fin n) :
    F.Er (R.taua L x s) (R.P.taua x s) (240 * (K * (D + E))) (6.5 * (K * (D + E))) := by
  have kp := h.K20.mul h.N20
  have p13 : Pw (1.3 : ℝ) 1 := Pw.of_num 1 (by norm_num) (by norm_num)
  have kd := kp.pos
  have := Er.dot (by norm_num : 5 ≤ 30) (h.er_stress L) (fun i => h.pT i s) (by linarith) (by norm_num)
    (by rw [mul_one]; exact (p13.mul kp).mono (by norm_num))
  refine this.mono ?_ ?_
  · push_cast
    linarith
  · push_cast
    linarith

/-- products of the tables with computed slip rates -/
theorem Sized.er_table {m : ℕ} {M M' : Mat m n} (hM : ∀ i s, F.Er (M i s) (M' i s) 20 1) {g : Vec n} {G : ℝ}
    (hG : Pw G 60) (hg : ∀ s, |g s| ≤ G) (i : Fin m) :
    F.Er (F.mulVec M g i) (vecsVMa M' g i) (56 * (n * G)) (n * G) := by
  have g0 := hG.pos
  have := Er.dot h.n30 (hM i) (fun s => Er.exact (hg s)) (by norm_num) (by linarith)
    (by rw [one_mul]; exact hG.mono (by norm_num))
  refine this.mono ?_ (by rw [one_mul])
  have hn : (n : ℝ) ≤ 30 := by exact_mod_cast h.n30
  have n0 : (0 : ℝ) ≤ n := Nat.cast_nonneg n
  have ng : 0 ≤ n * G := mul_nonneg n0 g0.le
  have : (n:ℝ) * (20 * G + 1.003 * (1 * 0) + 1.13 * (n + 1) * (1 * G)) = 20 * (n * G) + 1.13 * (n + 1) * (n * G) := by
    ring
  rw [this]
  have : (n + 1 : ℝ) * (n * G) ≤ 31 * (n * G) := mul_le_mul_of_nonneg_right (by linarith) ng
  linarith

theorem Sized.er_xi (i : Fin 3) : F.Er (xiF F x i) (Updst.xiF x i) (2.02 * X) X := by
  have h1 : F.Rel F.rScale Ecm.rScale 1.01 := by
    have := Rel.round' (F := F) (Rel.refl Ecm.rScale) le_rfl (by norm_num)
      ⟨by norm_num [Ecm.rScale], by norm_num [Ecm.rScale]⟩
    exact this.mono (by norm_num)
  have h2 := ((h1.mul_right (x (iR i))).er (by norm_num) (h.hX i)).round (by linarith [h.X20.pos])
    (h.X20.mono (by norm_num))
  exact h2.mono (by linarith) le_rfl

omit h in
theorem vecNorm_sub_comm {m : ℕ} (a b : Vec m) :
    vecNorm (fun i => a i - b i) = vecNorm (fun i => b i - a i) := by
  unfold vecNorm
  congr 1
  exact Finset.sum_congr rfl fun i _ => by ring

omit h in
theorem vecNorm3 {v : Vec 3} {b : ℝ} (hb : 0 ≤ b) (hv : ∀ i, |v i| ≤ b) : vecNorm v ≤ 1.74 * b := by
  unfold vecNorm
  refine Real.sqrt_le_iff.2 ⟨by positivity, ?_⟩
  rw [Fin.sum_univ_three]
  have : ∀ i, v i * v i ≤ b * b := fun i => by
    rw [← abs_mul_abs_self]; exact mul_self_le_mul_self (abs_nonneg _) (hv i)
  nlinarith [this 0, this 1, this 2, mul_self_nonneg b]

/-- the computed orientation -/
theorem Sized.quat : vecNorm (fun i => R.cQuat F x i - R.P.cQuat x i) ≤ 57 * F.w
    ∧ |len (R.cQuat F x) - 1| ≤ 46 * F.u ∧ qn (R.P.cQuat x) = 1 := by
  have hw := F.w_pos; have hw1 := F.w_le; have hu := F.u_nonneg; have huw := F.u_le_w
  have x0 := h.X20.pos
  have x1 := h.X1
  have q0 : 0 < vecNorm R.q := lt_of_lt_of_le (by positivity) h.q0
  have dx : vecNorm (fun i => xiF F x i - Updst.xiF x i) ≤ 1.74 * (2.02 * X * F.w) :=
    vecNorm3 (by positivity) fun i => (h.er_xi i).2
  have nx : vecNorm (xiF F x) ≤ 1.74 * (1.0023 * X) :=
    vecNorm3 (by positivity) fun i => (h.er_xi i).size (by linarith)
  have nx1 : vecNorm (xiF F x) ≤ 0.88 := by linarith
  obtain ⟨Q, hQ, e1, e2⟩ := Ecm.step_close F h.q0 h.q1 (xi := xiF F x) (le_trans nx1 (by norm_num))
  have hu1 : vecNorm R.P.cN = 1 := by rw [h.hq]; exact Flt.unit_vec R.q q0
  have hqn : qn R.P.cN = 1 := by rw [qn_eq_vecNorm, hu1]; norm_num
  refine ⟨?_, ?_, R.P.qn_cQuat hqn x⟩
  · have t1 := vecNorm_sub_le (R.cQuat F x) (Ecm.quatProd R.P.cN Q) (R.P.cQuat x)
    have e1' : vecNorm (R.cQuat F x - Ecm.quatProd R.P.cN Q) ≤ 46 * F.u := by rw [h.hq]; exact e1
    have t2 : vecNorm (Ecm.quatProd R.P.cN Q - R.P.cQuat x) = vecNorm (Q - Ecm.emapToQuat (Updst.xiF x)) := by
      show vecNorm (Ecm.quatProd R.P.cN Q - Ecm.quatProd R.P.cN (Ecm.emapToQuat (Updst.xiF x))) = _
      rw [quatProd_sub, vecNorm_prod_unit hqn]
    have t3 := vecNorm_sub_le Q (expQuat (xiF F x)) (Ecm.emapToQuat (Updst.xiF x))
    have t4 := vecNorm_sub_le (expQuat (xiF F x)) (expQuat (Updst.xiF x)) (Ecm.emapToQuat (Updst.xiF x))
    have t5 := expQuat_lip' (xiF F x) (Updst.xiF x)
    have t6 : vecNorm (expQuat (Updst.xiF x) - Ecm.emapToQuat (Updst.xiF x)) ≤ 2 / 10 ^ 90 := by
      have e : expQuat (Updst.xiF x) - Ecm.emapToQuat (Updst.xiF x)
          = (-1 : ℝ) • (Ecm.emapToQuat (Updst.xiF x) - expQuat (Updst.xiF x)) := by module
      rw [e, vecNorm_smul]; simpa using emap_dist (Updst.xiF x)
    have e2' : vecNorm (Q - expQuat (xiF F x)) ≤ 10 * F.u * vecNorm (xiF F x) + 1 / 10 ^ 89 := e2
    have dx' : vecNorm (xiF F x - Updst.xiF x) ≤ 1.74 * (2.02 * X * F.w) := dx
    have m1 : 10 * F.u * vecNorm (xiF F x) ≤ 8.8 * F.w := by
      have := mul_le_mul huw nx1 (vecNorm_nonneg _) hw.le
      linarith
    have m2 : 1.74 * (2.02 * X * F.w) ≤ 1.76 * F.w := by
      have := mul_le_mul_of_nonneg_right x1 hw.le
      linarith
    have m3 : 1 / 10 ^ 89 + 2 / 10 ^ 90 ≤ 0.1 * F.w := by
      have : 1 / 10 ^ 28 ≤ F.w := by unfold w; linarith
      refine le_trans ?_ (mul_le_mul_of_nonneg_left this (by norm_num))
      norm_num
    show vecNorm (R.cQuat F x - R.P.cQuat x) ≤ _
    linarith
  · have hl : vecNorm (Ecm.quatProd (fun i => R.q i * (1 / vecNorm R.q)) Q) = 1 := by
      rw [vecNorm_quatProd, Flt.unit_vec R.q q0, hQ, one_mul]
    have a1 := vecNorm_le_of_sub (R.cQuat F x) (Ecm.quatProd (fun i => R.q i * (1 / vecNorm R.q)) Q)
    have a2 := vecNorm_le_of_sub (Ecm.quatProd (fun i => R.q i * (1 / vecNorm R.q)) Q) (R.cQuat F x)
    rw [vecNorm_sub_comm (fun i => Ecm.quatProd (fun i => R.q i * (1 / vecNorm R.q)) Q i)] at a2
    rw [hl] at a1 a2
    have e1' : vecNorm (fun i => R.cQuat F x i - Ecm.quatProd (fun i => R.q i * (1 / vecNorm R.q)) Q i) ≤ 46 * F.u := e1
    show |vecNorm (R.cQuat F x) - 1| ≤ _
    exact abs_le.2 ⟨by linarith, by linarith⟩

end Run
end Flt
end Ecm
