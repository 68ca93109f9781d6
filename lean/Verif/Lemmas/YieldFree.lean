/- Helper lemmas for C85 with any class of elasticity: the strain is measured from the strain without shear stress; and the
   part of a stress that the hexagonal slip systems carry. -/
import Verif.Lemmas.Yield
import Verif.Lemmas.Exist
import Verif.Lemmas.Hcp

namespace Ecm
open Spec

namespace Updst
variable {n : ℕ} (P : Updst n)

/-- as `wNorm_step_free`, with the plastic power kept -/
theorem wNorm_power_free (hK : ∀ k, 0 < P.el.kDiag k)
    {κ : ℝ} (hκ : ∀ k, P.el.kDiag k ≤ κ) (hdt : 0 < P.dt) (hv : 0 < P.detV) (hcn : qn P.cN = 1) (x : Vec 8) :
    wNorm P.el.kDiag (P.eF x - P.eFree) ^ 2 + P.dt * P.aV * (P.aV * ∑ s, P.taua x s * P.gdot x s)
      ≤ wNorm P.el.kDiag (P.eF x - P.eFree) * (wNorm P.el.kDiag (P.eN - P.eFree)
        + P.dt * P.aV * (Real.sqrt κ * (vecNorm P.dSm + vecNorm (P.residE x)))) := by
  have hK' : ∀ k, 0 ≤ P.el.kDiag k := fun k => (hK k).le
  have ha := P.aV_pos hv
  have htf := P.taua_free hK hv x
  set K := P.el.kDiag with hKd
  set D := vecsVMTa (P.qr5x5 x) P.dSm with hD
  set e' := P.eF x - P.eFree with he'
  have hR := isRot_of_unit (P.qn_cQuat hcn x)
  have hDn : vecNorm D = vecNorm P.dSm := vecNorm_vecsVMTa_rot hR.1 _
  have hpl : ∑ i, K i * e' i * vecsVMa P.geom.P (P.gdot x) i = P.aV * ∑ s, P.taua x s * P.gdot x s := by
    simp only [htf, vecsVMa, Finset.mul_sum, Finset.sum_mul]
    rw [Finset.sum_comm]
    refine Finset.sum_congr rfl fun s _ => Finset.sum_congr rfl fun i _ => ?_
    rw [he', Pi.sub_apply]
    unfold aVri
    field_simp
  have hsq : wNorm K e' ^ 2 = ∑ i, K i * e' i * (P.eN - P.eFree) i
      + P.dt * P.aV * (∑ i, K i * e' i * (D + P.residE x) i)
      - P.dt * P.aV * ∑ i, K i * e' i * vecsVMa P.geom.P (P.gdot x) i := by
    rw [wNorm_sq hK', Finset.mul_sum, Finset.mul_sum, ← Finset.sum_add_distrib,
      ← Finset.sum_sub_distrib]
    refine Finset.sum_congr rfl fun i _ => ?_
    have : e' i = (P.eN - P.eFree) i + P.dt * P.aV * (D i + P.residE x i
            - vecsVMa P.geom.P (P.gdot x) i) := by
      rw [he', Pi.sub_apply, Pi.sub_apply, P.eF_eq hdt hv x i, ← hD]; ring
    calc K i * e' i ^ 2 = K i * e' i * e' i := by ring
      _ = K i * e' i * ((P.eN - P.eFree) i + P.dt * P.aV * (D i + P.residE x i
            - vecsVMa P.geom.P (P.gdot x) i)) := by rw [← this]
      _ = _ := by rw [Pi.add_apply]; ring
  have h1 := wDot_le hK' e' (P.eN - P.eFree)
  have h2 := wDot_le hK' e' (D + P.residE x)
  have h3 : wNorm K (D + P.residE x) ≤ Real.sqrt κ * (vecNorm P.dSm + vecNorm (P.residE x)) := by
    refine (wNorm_le hK' hκ _).trans (mul_le_mul_of_nonneg_left ?_ (Real.sqrt_nonneg _))
    rw [← hDn]; exact vecNorm_add_le _ _
  have hda : 0 < P.dt * P.aV := mul_pos hdt ha
  have h4 := mul_le_mul_of_nonneg_left h2 hda.le
  have h5 := mul_le_mul_of_nonneg_left (mul_le_mul_of_nonneg_left h3 (wNorm_nonneg K e')) hda.le
  rw [hsq, hpl]
  linarith

/-- elastic strain beyond what the yield stress carries relaxes, with any elasticity -/
theorem wNorm_yield_free
    {κ κ0 : ℝ} (hκ : ∀ k, P.el.kDiag k ≤ κ) (hκ0 : 0 < κ0) (hK : ∀ k, κ0 ≤ P.el.kDiag k)
    (hdt : 0 < P.dt) (hv : 0 < P.detV) (hcn : qn P.cN = 1)
    {c : ℝ} (hc : 0 < c) (hG : Resolves P.geom.P c) (x : Vec 8) (hd : ∀ s, 0 ≤ P.taua x s * P.gdot x s)
    {τY γY : ℝ} (hτ : 0 < τY) (hγ : 0 ≤ γY) (hy : ∀ s, τY ≤ |P.taua x s| → γY * |P.taua x s| ≤ P.taua x s * P.gdot x s)
    (hw : τY * P.aV ≤ c * Real.sqrt κ0 * wNorm P.el.kDiag (P.eF x - P.eFree)) :
    wNorm P.el.kDiag (P.eF x - P.eFree) ≤ wNorm P.el.kDiag (P.eN - P.eFree)
      + P.dt * P.aV * (Real.sqrt κ * (vecNorm P.dSm + vecNorm (P.residE x)) - c * Real.sqrt κ0 * γY) := by
  have hpos : ∀ k, 0 < P.el.kDiag k := fun k => hκ0.trans_le (hK k)
  have ha := P.aV_pos hv
  have h1 := P.wNorm_power_free hpos hκ hdt hv hcn x
  have hw0 : 0 < wNorm P.el.kDiag (P.eF x - P.eFree) := by
    have h2 : 0 < c * Real.sqrt κ0 * wNorm P.el.kDiag (P.eF x - P.eFree) := (mul_pos hτ ha).trans_le hw
    have h3 : 0 < c * Real.sqrt κ0 := mul_pos hc (Real.sqrt_pos.2 hκ0)
    exact pos_of_mul_pos_right h2 h3.le
  set e' := P.eF x - P.eFree with he'
  set w := wNorm P.el.kDiag e' with hwd
  obtain ⟨s, hs⟩ := hG fun i => P.el.kDiag i * e' i
  have e1 : P.taua x s = P.aVri * vecsVaTM (fun i => P.el.kDiag i * e' i) P.geom.P s := P.taua_free hpos hv x s
  have e2 : Real.sqrt κ0 * w ≤ vecNorm fun i => P.el.kDiag i * e' i := by
    rw [hwd]
    unfold vecNorm wNorm
    rw [← Real.sqrt_mul hκ0.le]
    refine Real.sqrt_le_sqrt ?_
    rw [Finset.mul_sum]
    refine Finset.sum_le_sum fun i _ => ?_
    have := mul_le_mul_of_nonneg_right (hK i) (mul_nonneg (hpos i).le (sq_nonneg (e' i)))
    nlinarith
  have e3 : c * Real.sqrt κ0 * w ≤ P.aV * |P.taua x s| := by
    rw [e1, abs_mul]
    unfold aVri
    rw [abs_of_pos (one_div_pos.2 ha), ← mul_assoc, mul_one_div_cancel ha.ne', one_mul, mul_assoc]
    exact (mul_le_mul_of_nonneg_left e2 hc.le).trans hs
  have e4 : τY ≤ |P.taua x s| := by
    refine le_of_mul_le_mul_left ?_ ha
    rw [mul_comm]
    exact hw.trans e3
  have e5 : γY * |P.taua x s| ≤ ∑ s, P.taua x s * P.gdot x s :=
    (hy s e4).trans (Finset.single_le_sum (f := fun s => P.taua x s * P.gdot x s) (fun i _ => hd i) (Finset.mem_univ s))
  have e6 : γY * (c * Real.sqrt κ0 * w) ≤ P.aV * ∑ s, P.taua x s * P.gdot x s := by
    calc γY * (c * Real.sqrt κ0 * w) ≤ γY * (P.aV * |P.taua x s|) := mul_le_mul_of_nonneg_left e3 hγ
      _ = P.aV * (γY * |P.taua x s|) := by ring
      _ ≤ _ := mul_le_mul_of_nonneg_left e5 ha.le
  have e7 := mul_le_mul_of_nonneg_left e6 (mul_pos hdt ha).le
  refine le_of_mul_le_mul_left ?_ hw0
  linarith

end Updst

/-! ### The hexagonal slip systems -/

/-- resolved stress of a hexagonal system -/
noncomputable def hcpTau (r : ℝ) (T : T3) (i : Fin 24) : ℝ := dot (hcpSx r i) (T.mulVec (hcpMx r i))

theorem hcpTau_int {r : ℝ} (hr : 0 < r) (T : T3) (i : Fin 24) : hcpTau r T i =
    hcpCm r (hcpFam i) * hcpCs r (hcpFam i) *
      ∑ k, ∑ l, hcpDs r k * (hcpSI i k : ℝ) * (T k l * (hcpDm r l * (hcpMI i l : ℝ))) := by
  unfold hcpTau
  simp only [dot, Matrix.mulVec, dotProduct, hcpM_int hr i _, hcpS_int r i _, Finset.mul_sum]
  refine Finset.sum_congr rfl fun k _ => Finset.sum_congr rfl fun l _ => ?_
  ring

theorem hcp_basal {r : ℝ} (hr : 0 < r) (T : T3) :
    hcpTau r T 0 ^ 2 + hcpTau r T 1 ^ 2 + hcpTau r T 2 ^ 2 = 3 / 2 * (T 0 2 ^ 2 + T 1 2 ^ 2) := by
  have h3 := s3_sq
  have hp := s3_pos
  simp only [hcpTau_int hr, Fin.sum_univ_three, hcpFam, hcpCm, hcpCs, hcpDs, hcpDm, hcpSI, hcpMI]
  simp
  field_simp
  ring_nf
  simp only [h3]
  ring

theorem hcp_prism {r : ℝ} (hr : 0 < r) {T : T3} (hT : IsDev T) :
    hcpTau r T 3 ^ 2 + hcpTau r T 4 ^ 2 + hcpTau r T 5 ^ 2 = 3 / 2 * (T 0 1 ^ 2 + ((T 0 0 - T 1 1) / 2) ^ 2) := by
  have h3 := s3_sq
  obtain ⟨h1, h2, h4, h5⟩ := (isDev_iff T).1 hT
  simp only [hcpTau_int hr, Fin.sum_univ_three, hcpFam, hcpCm, hcpCs, hcpDs, hcpDm, hcpSI, hcpMI]
  simp
  rw [h1]
  field_simp
  ring_nf
  have h9 : Real.sqrt 3 ^ 4 = 9 := by nlinarith [h3]
  simp only [h3, h9]
  ring

theorem hcp_axial {r : ℝ} (hr : 0 < r) {T : T3} (hT : IsDev T) :
    hcpTau r T 12 + hcpTau r T 13 + hcpTau r T 14 + hcpTau r T 15 + hcpTau r T 16 + hcpTau r T 17
      + hcpTau r T 18 + hcpTau r T 19 + hcpTau r T 20 + hcpTau r T 21 + hcpTau r T 22 + hcpTau r T 23
      = 9 * Real.sqrt 3 * r * (hu r * hw r) * T 2 2 := by
  obtain ⟨h1, h2, h4, h5⟩ := (isDev_iff T).1 hT
  simp only [hcpTau_int hr, Fin.sum_univ_three, hcpFam, hcpCm, hcpCs, hcpDs, hcpDm, hcpSI, hcpMI]
  simp
  rw [h1, h2, h4, h5]
  ring

/-- the part of any stress that some hexagonal system carries -/
noncomputable def hcpPart (r : ℝ) : ℝ := 1 / Real.sqrt (8 + 8 / 9 * ((r ^ 2 + 3 / 4) * (r ^ 2 + 1) / r ^ 2))

theorem hcp_resolved {r : ℝ} (hr : 0 < r) {T : T3} (hT : IsDev T) :
    ∃ i, hcpPart r * Real.sqrt (ddot T T) ≤ |hcpTau r T i| := by
  by_contra hcon
  push Not at hcon
  have hdd : ddot T T = 3 / 2 * T 2 2 ^ 2 + 2 * (T 0 1 ^ 2 + ((T 0 0 - T 1 1) / 2) ^ 2) + 2 * (T 0 2 ^ 2 + T 1 2 ^ 2) := by
    obtain ⟨h1, h2, h4, h5⟩ := (isDev_iff T).1 hT
    simp only [ddot, Fin.sum_univ_three]
    rw [h1, h2, h4, h5]
    ring
  have hn : 0 ≤ ddot T T := by rw [hdd]; positivity
  set q := (r ^ 2 + 3 / 4) * (r ^ 2 + 1) / r ^ 2 with hq
  have hq0 : 0 < q := by rw [hq]; positivity
  set b := hcpPart r * Real.sqrt (ddot T T) with hb
  have hb2 : b ^ 2 * (8 + 8 / 9 * q) = ddot T T := by
    rw [hb, hcpPart, ← hq, mul_pow, div_pow, Real.sq_sqrt hn, Real.sq_sqrt (by positivity)]
    field_simp
  have sq_lt : ∀ i, hcpTau r T i ^ 2 < b ^ 2 := fun i => by
    have := pow_lt_pow_left₀ (hcon i) (abs_nonneg _) two_ne_zero
    rwa [sq_abs] at this
  have h1 := hcp_basal hr T
  have h2 := hcp_prism hr hT
  have h3 := hcp_axial hr hT
  have hab : |9 * Real.sqrt 3 * r * (hu r * hw r) * T 2 2| < 12 * b := by
    rw [← h3, abs_lt]
    have := fun i => (abs_lt.1 (hcon i))
    constructor <;> linarith [(this 12).1, (this 13).1, (this 14).1, (this 15).1, (this 16).1, (this 17).1,
      (this 18).1, (this 19).1, (this 20).1, (this 21).1, (this 22).1, (this 23).1, (this 12).2, (this 13).2, (this 14).2,
      (this 15).2, (this 16).2, (this 17).2, (this 18).2, (this 19).2, (this 20).2, (this 21).2, (this 22).2, (this 23).2]
  have ha2 := pow_lt_pow_left₀ hab (abs_nonneg _) two_ne_zero
  rw [sq_abs] at ha2
  have huw : r ^ 2 * (hu r * hw r) ^ 2 * q = 1 := by
    have hu2 := hu_sq r
    have hw2 := hw_sq r
    rw [hq]
    field_simp
    linear_combination (4 * hw r ^ 2 * (r ^ 2 + 1)) * hu2 + 4 * hw2
  have ha3 : 243 * T 2 2 ^ 2 < 144 * b ^ 2 * q := by
    have := mul_lt_mul_of_pos_right ha2 hq0
    calc 243 * T 2 2 ^ 2 = 243 * T 2 2 ^ 2 * (r ^ 2 * (hu r * hw r) ^ 2 * q) := by rw [huw, mul_one]
      _ = (9 * Real.sqrt 3 * r * (hu r * hw r) * T 2 2) ^ 2 * q := by
        linear_combination (-81 * T 2 2 ^ 2 * r ^ 2 * (hu r * hw r) ^ 2 * q) * s3_sq
      _ < _ := this
      _ = _ := by ring
  have l1 := sq_lt 0; have l2 := sq_lt 1; have l3 := sq_lt 2
  have l4 := sq_lt 3; have l5 := sq_lt 4; have l6 := sq_lt 5
  nlinarith

end Ecm
