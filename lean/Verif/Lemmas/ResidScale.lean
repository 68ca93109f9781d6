/- Error bounds for the residual of the implicit step in floating-point arithmetic: the scale factors and the
   final sums. -/
import Verif.Lemmas.ResidSum

namespace Ecm
open Spec Props

namespace Flt
variable {F : Flt}

theorem norm5_small (v : Vec 5) (h : vecNorm v < 1 / 10 ^ 60) : F.norm v ≤ 1 / 10 ^ 50 := by
  have hu := F.u_nonneg; have hu1 := F.u_le
  have v0 := vecNorm_nonneg v
  have hS : ∑ i, |v i * v i| = vecNorm v ^ 2 := by
    rw [vecNorm_sq]
    exact Finset.sum_congr rfl fun i _ => by rw [abs_mul_self, sq]
  have hS2 : ∑ i, v i * v i = vecNorm v ^ 2 := by
    rw [vecNorm_sq]
    exact Finset.sum_congr rfl fun i _ => by rw [sq]
  have hp : vecNorm v ^ 2 ≤ (1 / 10 ^ 60) ^ 2 := pow_le_pow_left₀ v0 h.le 2
  have hd := F.dot_err v v (by norm_num) (by rw [hS]; exact hp.trans (by norm_num))
  rw [hS, hS2] at hd
  have hη : F.η ≤ 1 / 10 ^ 200 := by
    refine F.η_le.trans ?_
    gcongr
    linarith
  have s0 : 0 ≤ vecNorm v ^ 2 := by positivity
  have hd2 : F.dot v v ≤ 2 * (1 / 10 ^ 60) ^ 2 := by
    have t1 := (abs_le.1 hd).2
    have t2 : 1.1 * ((5 : ℕ) + 1) * F.u * vecNorm v ^ 2 ≤ 0.001 * vecNorm v ^ 2 := by
      refine mul_le_mul_of_nonneg_right ?_ s0
      push_cast; linarith
    have t3 : 3 * ((5 : ℕ) : ℝ) * F.η ≤ 0.5 * (1 / 10 ^ 60) ^ 2 := by
      push_cast
      refine (mul_le_mul_of_nonneg_left hη (by norm_num)).trans ?_
      norm_num
    linarith
  have hr : Real.sqrt (F.dot v v) ≤ 2 * (1 / 10 ^ 60) := by
    refine Real.sqrt_le_iff.2 ⟨by positivity, hd2.trans ?_⟩
    norm_num
  have hr0 := Real.sqrt_nonneg (F.dot v v)
  unfold Flt.norm
  rw [sumSq_eq_dot]
  have f := F.fl_err (Real.sqrt (F.dot v v)) (by rw [abs_of_nonneg hr0]; exact hr.trans (by norm_num))
  rw [abs_of_nonneg hr0] at f
  have f1 := (abs_le.1 f).2
  have f2 : F.u * Real.sqrt (F.dot v v) ≤ 1 * (2 * (1 / 10 ^ 60)) :=
    mul_le_mul (by linarith) hr hr0 (by norm_num)
  have : (2 * (1 / 10 ^ 60) + 1 * (2 * (1 / 10 ^ 60)) + 1 / 10 ^ 200 : ℝ) ≤ 1 / 10 ^ 50 := by norm_num
  linarith

theorem Rel.bounds {a x k : ℝ} (h : F.Rel a x k) (hx : 0 < x) (hk0 : 0 ≤ k) :
    (1 - k / 10 ^ 6) * x ≤ a ∧ a ≤ (1 + k / 10 ^ 6) * x := by
  unfold Rel at h
  rw [abs_of_pos hx] at h
  have h1 := abs_le.1 h
  have h2 : k * F.u ≤ k / 10 ^ 6 := by
    have := mul_le_mul_of_nonneg_left F.u_le hk0
    linarith
  have h3 := mul_le_mul_of_nonneg_right h2 hx.le
  constructor <;> linarith [h1.1, h1.2]

theorem Rel.min_aux {a b x y k : ℝ} (hx : F.Rel a x k) (hy : F.Rel b y k) (x0 : 0 < x) (hxy : x ≤ y)
    (hk0 : 0 ≤ k) (hk : k ≤ 1000) : F.Rel (min a b) (min x y) k := by
  have hu := F.u_nonneg; have hu1 := F.u_le
  have y0 : 0 < y := lt_of_lt_of_le x0 hxy
  unfold Rel at *
  rw [abs_of_pos x0] at hx
  rw [abs_of_pos y0] at hy
  rw [abs_of_pos (lt_min x0 y0), min_eq_left hxy]
  have h1 := abs_le.1 hx
  have h2 := abs_le.1 hy
  have ku : k * F.u ≤ 1 := by nlinarith
  rw [abs_le]
  constructor
  · rcases le_total a b with hab | hab
    · rw [min_eq_left hab]; linarith [h1.1]
    · rw [min_eq_right hab]
      have := mul_nonneg (sub_nonneg.2 ku) (sub_nonneg.2 hxy)
      nlinarith [h2.1]
  · have := min_le_left a b
    linarith [h1.2]

theorem Rel.min {a b x y k : ℝ} (hx : F.Rel a x k) (hy : F.Rel b y k) (x0 : 0 < x) (y0 : 0 < y)
    (hk0 : 0 ≤ k) (hk : k ≤ 1000) : F.Rel (min a b) (min x y) k := by
  rcases le_total x y with hxy | hxy
  · exact Rel.min_aux hx hy x0 hxy hk0 hk
  · rw [min_comm a, min_comm x]
    exact Rel.min_aux hy hx y0 hxy hk0 hk

namespace Run
variable {n : ℕ} {R : Run n} {x : Vec 8} {D E X K V W : ℝ}

/-- the imposed rate is not within a thousandth of the threshold where the scale factor jumps -/
def Clear (R : Run n) : Prop :=
  vecNorm R.P.dSm ≤ 0.999 * (epsdotSclNzeff * R.P.adotsRef)
    ∨ 1.001 * (epsdotSclNzeff * R.P.adotsRef) ≤ vecNorm R.P.dSm

/-- the scale factor of the first five components -/
theorem Sized.rel_sE (h : Sized F R x D E X K V W) (hc : Clear R) :
    F.Rel (R.sE F) R.P.epsdotScaleInv 6 ∧ Pw R.P.epsdotScaleInv 30 := by
  have hu := F.u_nonneg; have hu1 := F.u_le
  have r0 := h.ref.pos
  have hnz : epsdotSclNzeff = 1 / 10 ^ 8 := rfl
  have hnz0 : Pw epsdotSclNzeff 8 := by rw [hnz]; exact Pw.of_num 8 le_rfl (by norm_num)
  have thr := hnz0.mul h.ref
  have t0 := thr.pos
  have rt : F.Rel (F.fl (F.fl epsdotSclNzeff * R.P.adotsRef)) (epsdotSclNzeff * R.P.adotsRef) 2.02 := by
    have h1 := Rel.round' (F := F) (Rel.refl epsdotSclNzeff) le_rfl (by norm_num) (hnz0.mono (by norm_num))
    exact ((h1.mul_right R.P.adotsRef).round' (by norm_num) (by norm_num) (thr.mono (by norm_num))).mono (by norm_num)
  have bt := rt.bounds t0 (by norm_num)
  have rr : F.Rel (F.fl (1 / R.P.adotsRef)) (1 / R.P.adotsRef) 6 :=
    (Rel.round' (F := F) (Rel.refl _) le_rfl (by norm_num) (h.ref.inv.mono (by norm_num))).mono (by norm_num)
  set θ := epsdotSclNzeff * R.P.adotsRef with hθ
  rcases hc with hc | hc
  · -- the rate is below the threshold
    rw [← hθ] at hc
    have e1 : vecNorm R.P.dSm < θ := by linarith
    have e2 : F.norm R.P.dSm < F.fl (F.fl epsdotSclNzeff * R.P.adotsRef) := by
      refine lt_of_lt_of_le ?_ bt.1
      by_cases hs : vecNorm R.P.dSm < 1 / 10 ^ 60
      · refine lt_of_le_of_lt (norm5_small _ hs) ?_
        have := mul_le_mul_of_nonneg_left thr.1 (by norm_num : (0:ℝ) ≤ 1 - 2.02 / 10 ^ 6)
        refine lt_of_lt_of_le ?_ this
        norm_num
      · have d0 : Pw (vecNorm R.P.dSm) 60 := ⟨not_lt.1 hs, h.hV.trans (h.V20.2.trans (by norm_num))⟩
        have := ((F.norm5_rel R.P.dSm d0).bounds d0.pos (by norm_num)).2
        refine lt_of_le_of_lt this ?_
        have := mul_le_mul_of_nonneg_left hc (by norm_num : (0:ℝ) ≤ 1 + 4.5 / 10 ^ 6)
        nlinarith
    have s1 : R.P.epsdotScaleInv = 1 / R.P.adotsRef := by
      simp only [Updst.epsdotScaleInv]; rw [if_pos (by rw [← hθ]; exact e1)]
    have s2 : R.sE F = F.fl (1 / R.P.adotsRef) := by
      simp only [sE]; rw [if_pos e2]
    rw [s1, s2]
    exact ⟨rr, h.ref.inv.mono (by norm_num)⟩
  · rw [← hθ] at hc
    have e1 : ¬ vecNorm R.P.dSm < θ := by linarith
    have d0 : Pw (vecNorm R.P.dSm) 28 :=
      ⟨by have := thr.1; linarith, h.hV.trans (h.V20.2.trans (by norm_num))⟩
    have rn := F.norm5_rel R.P.dSm (d0.mono (by norm_num))
    have bn := rn.bounds d0.pos (by norm_num)
    have e2 : ¬ F.norm R.P.dSm < F.fl (F.fl epsdotSclNzeff * R.P.adotsRef) := by
      refine not_lt.2 (bt.2.trans (le_trans ?_ bn.1))
      have := mul_le_mul_of_nonneg_left hc (by norm_num : (0:ℝ) ≤ 1 - 4.5 / 10 ^ 6)
      nlinarith
    have np := rn.pos d0.pos (by norm_num)
    have s1 : R.P.epsdotScaleInv = min (1 / vecNorm R.P.dSm) (10 ^ 6 * R.P.dt) := by
      simp only [Updst.epsdotScaleInv]; rw [if_neg (by rw [← hθ]; exact e1), if_neg d0.pos.ne']
    have s2 : R.sE F = min (F.fl (1 / F.norm R.P.dSm)) (F.fl (10 ^ 6 * R.P.dt)) := by
      simp only [sE]; rw [if_neg e2, if_neg np.ne']
    have p1 := d0.inv
    have p2 : Pw (10 ^ 6 * R.P.dt) 26 := (Pw.of_num 6 (by norm_num) le_rfl : Pw (10 ^ 6 : ℝ) 6).mul h.dt
    have m1 : F.Rel (F.fl (1 / F.norm R.P.dSm)) (1 / vecNorm R.P.dSm) 6 :=
      ((rn.inv d0.pos (by norm_num) (by norm_num)).round' (by norm_num) (by norm_num)
        (p1.mono (by norm_num))).mono (by norm_num)
    have m2 : F.Rel (F.fl (10 ^ 6 * R.P.dt)) (10 ^ 6 * R.P.dt) 6 :=
      (Rel.round' (F := F) (Rel.refl _) le_rfl (by norm_num) (p2.mono (by norm_num))).mono (by norm_num)
    rw [s1, s2]
    refine ⟨Rel.min m1 m2 p1.pos p2.pos (by norm_num) (by norm_num), ?_⟩
    have q1 := p1.mono (by norm_num : 28 ≤ 30)
    have q2 := p2.mono (by norm_num : 26 ≤ 30)
    exact ⟨le_min q1.1 q2.1, (min_le_left _ _).trans q1.2⟩

/-- exact residual with other slip rates: strain part, not scaled -/
noncomputable def exactE (R : Run n) (x : Vec 8) (g : Vec n) : Vec 5 := fun i =>
  R.P.aVri * R.P.edot x i + vecsVMa R.P.geom.P g i - vecsVMTa (R.P.qr5x5 x) R.P.dSm i
/-- exact residual with other slip rates: rotation part, not scaled -/
noncomputable def exactR (R : Run n) (x : Vec 8) (g : Vec n) : Vec 3 := fun i =>
  Updst.xiF x i - R.P.dt * (vecsVMTa (R.P.cMatx x) R.P.wSm i - vecsVMa R.P.geom.Q g i
    + R.P.eeFac * vecsVMa (Ecm.m35 (R.P.eF x)) (R.P.edot x) i)

theorem table_diff {m : ℕ} {M : Mat m n} (hM : ∀ i s, |M i s| ≤ 1) {g g' : Vec n} {δ : ℝ}
    (hg : ∀ s, |g s - g' s| ≤ δ) (i : Fin m) : |vecsVMa M g i - vecsVMa M g' i| ≤ n * δ := by
  unfold vecsVMa
  rw [← Finset.sum_sub_distrib]
  refine (Finset.abs_sum_le_sum_abs _ _).trans ?_
  have : ∀ s ∈ (Finset.univ : Finset (Fin n)), |M i s * g s - M i s * g' s| ≤ δ := fun s _ => by
    rw [← mul_sub, abs_mul]
    have := mul_le_mul (hM i s) (hg s) (abs_nonneg _) zero_le_one
    linarith
  refine (Finset.sum_le_sum this).trans (le_of_eq ?_)
  rw [Finset.sum_const, Finset.card_univ, Fintype.card_fin, nsmul_eq_mul]

theorem nG_pw (h : Sized F R x D E X K V W) {G : ℝ} (hG : Pw G 60) : 0 ≤ n * G ∧ n * G ≤ 10 ^ 62 := by
  have hn : (n : ℝ) ≤ 30 := by exact_mod_cast h.n30
  refine ⟨mul_nonneg (Nat.cast_nonneg n) hG.pos.le, ?_⟩
  have := mul_le_mul hn hG.2 hG.pos.le (by norm_num)
  refine this.trans ?_
  norm_num

theorem Sized.er_residE (h : Sized F R x D E X K V W) (hc : Clear R) (L : Libm F) {G : ℝ} (hG : Pw G 60)
    (hg : ∀ s, |R.gdot L x s| ≤ G) (i : Fin 5) :
    |R.residE L x i - R.P.epsdotScaleInv * exactE R x (R.gdot L x) i|
      ≤ R.P.epsdotScaleInv * (F.w * (24 * (D / R.P.dt) + 68 * (n * G) + 1015 * V)) := by
  obtain ⟨hs, sp⟩ := h.rel_sE hc
  have s0 := sp.pos
  obtain ⟨ng0, ng1⟩ := nG_pw h hG
  have r0 := h.r20.pos
  have v0 := h.V20.pos
  rw [show D / R.P.dt = D * (1 / R.P.dt) by ring]
  have a1 := h.er_aedot L i
  have a2 := h.er_table h.pT hG hg i
  have a3 := h.er_dLat i
  have p13 : Pw (1.3 : ℝ) 1 := Pw.of_num 1 (by norm_num) (by norm_num)
  have q1 : Pw (1.3 * (D * (1 / R.P.dt)) + n * G) 63 :=
    ((p13.mul h.r20).mono (by norm_num : 1 + 40 ≤ 62)).add0 ng0 ng1
  have q2 : Pw (1.3 * (D * (1 / R.P.dt)) + n * G + V) 64 := q1.add (h.V20.mono (by norm_num))
  set r := D * (1 / R.P.dt) with hr
  set m := (n : ℝ) * G with hm
  have b1 := a1.add a2 (by linarith) (by linarith) (q1.mono (by norm_num))
  have b2 := (b1.mono (e' := 12.6 * r + 57.1 * m) (by linarith) le_rfl).sub a3 (by linarith) (by linarith)
    (q2.mono (by norm_num))
  have b3 := b2.mono (e' := 14 * r + 58.2 * m + 1002 * V) (by linarith) le_rfl
  have se : F.Er (R.sE F) R.P.epsdotScaleInv (6 * R.P.epsdotScaleInv) R.P.epsdotScaleInv :=
    hs.er (by norm_num) (le_of_eq (abs_of_pos s0))
  have b4 := (se.mul b3 (by linarith) (by linarith) ((sp.mul q2).mono (by norm_num))).2
  refine le_trans b4 ?_
  have hw := F.w_pos
  have t : 6 * R.P.epsdotScaleInv * (1.3 * r + m + V) + 1.003 * (R.P.epsdotScaleInv * (14 * r + 58.2 * m + 1002 * V))
      + 1.01 * (R.P.epsdotScaleInv * (1.3 * r + m + V))
      ≤ R.P.epsdotScaleInv * (24 * r + 68 * m + 1015 * V) := by
    have c1 := mul_nonneg s0.le r0.le
    have c2 := mul_nonneg s0.le ng0
    have c3 := mul_nonneg s0.le v0.le
    linarith
  have := mul_le_mul_of_nonneg_right t hw.le
  linarith

theorem Sized.er_residR (h : Sized F R x D E X K V W) (hc : Clear R) (L : Libm F) {G : ℝ} (hG : Pw G 60)
    (hg : ∀ s, |R.gdot L x s| ≤ G) (i : Fin 3) :
    |R.residR L x i - R.P.rotincrScaleInv * exactR R x (R.gdot L x) i|
      ≤ R.P.epsdotScaleInv * (F.w * (13 * (X / R.P.dt) + 1300 * W + 70 * (n * G)
        + 240 * ((D + E) * (D / R.P.dt)))) := by
  obtain ⟨hs, sp⟩ := h.rel_sE hc
  have s0 := sp.pos
  obtain ⟨ng0, ng1⟩ := nG_pw h hG
  have r0 := h.r20.pos
  have w0 := h.W20.pos
  have x0 := h.X20.pos
  have j0 := h.J60.pos
  have d0 := h.dt.pos
  rw [show D / R.P.dt = D * (1 / R.P.dt) by ring, show X / R.P.dt = X * (1 / R.P.dt) by ring]
  have a1 := h.er_wLat i
  have a2 := h.er_table h.qT hG hg i
  have a3 := h.er_eeSpin L i
  have a4 := h.er_xi i
  have p3 : Pw (3 : ℝ) 1 := Pw.of_num 1 (by norm_num) (by norm_num)
  have p6 : Pw (6 : ℝ) 1 := Pw.of_num 1 (by norm_num) (by norm_num)
  have q1 : Pw (3 * W + n * G) 63 := ((p3.mul h.W20).mono (by norm_num : 1 + 20 ≤ 62)).add0 ng0 ng1
  have q2 : Pw (3 * W + n * G + 6 * ((D + E) * (D * (1 / R.P.dt)))) 64 :=
    q1.add ((p6.mul h.J60).mono (by norm_num : 1 + 61 ≤ 63))
  have q3 := h.dt.mul q2
  have q4 := (h.X20.mono (by norm_num : 20 ≤ 20 + 64)).add q3
  have se : F.Er (R.sE F) R.P.epsdotScaleInv (6 * R.P.epsdotScaleInv) R.P.epsdotScaleInv :=
    hs.er (by norm_num) (le_of_eq (abs_of_pos s0))
  have ri := h.dt.inv
  have i0 := ri.pos
  have sr := h.er_dtRi.mul se (by linarith) (by linarith) ((ri.mul sp).mono (by norm_num))
  set J := (D + E) * (D * (1 / R.P.dt)) with hJ
  set m := (n : ℝ) * G with hm
  have b1 := (a1.sub a2 (by linarith) (by linarith) (q1.mono (by norm_num))).mono
    (e' := 1253.1 * W + 57.1 * m) (by linarith) le_rfl
  have b2 := (b1.add a3 (by linarith) (by linarith) (q2.mono (by norm_num))).mono
    (e' := 1257 * W + 58.2 * m + 167 * J) (by linarith) le_rfl
  have b3 := b2.scale R.P.dt (m := R.P.dt) (le_of_eq (abs_of_pos d0)) (by linarith) (q3.mono (by norm_num))
  set M := R.P.dt * (3 * W + m + 6 * J) with hM
  have dW := mul_pos d0 w0
  have dm := mul_nonneg d0.le ng0
  have dJ := mul_pos d0 j0
  have b4 := (a4.sub (b3.mono (e' := 1261 * (R.P.dt * W) + 59.3 * (R.P.dt * m) + 174 * (R.P.dt * J))
    (by linarith) le_rfl) (by linarith) (by linarith) (q4.mono (by norm_num))).mono
    (e' := 3.04 * X + 1265 * (R.P.dt * W) + 60.4 * (R.P.dt * m) + 181 * (R.P.dt * J)) (by linarith) le_rfl
  have b5 := (sr.mono (e' := 8.04 * (1 / R.P.dt * R.P.epsdotScaleInv)) (by
      have := mul_pos i0 s0; linarith) le_rfl).mul b4 (by have := mul_pos i0 s0; linarith) (by linarith)
    (((ri.mul sp).mul q4).mono (by norm_num))
  refine le_trans b5.2 ?_
  have hw := F.w_pos
  have t : 8.04 * (1 / R.P.dt * R.P.epsdotScaleInv) * (X + M) + 1.003 * (1 / R.P.dt * R.P.epsdotScaleInv *
      (3.04 * X + 1265 * (R.P.dt * W) + 60.4 * (R.P.dt * m) + 181 * (R.P.dt * J)))
      + 1.01 * (1 / R.P.dt * R.P.epsdotScaleInv * (X + M))
      ≤ R.P.epsdotScaleInv * (13 * (X * (1 / R.P.dt)) + 1300 * W + 70 * m + 240 * J) := by
    have e1 : 1 / R.P.dt * R.P.epsdotScaleInv * M = R.P.epsdotScaleInv * (3 * W + m + 6 * J) := by
      rw [hM]; field_simp
    have e2 : ∀ z, 1 / R.P.dt * R.P.epsdotScaleInv * (R.P.dt * z) = R.P.epsdotScaleInv * z := fun z => by
      field_simp
    have e3 : 1 / R.P.dt * R.P.epsdotScaleInv * X = R.P.epsdotScaleInv * (X * (1 / R.P.dt)) := by ring
    have c0 := mul_pos s0 (mul_pos x0 i0)
    have c1 := mul_nonneg s0.le w0.le
    have c2 := mul_nonneg s0.le ng0
    have c3 := mul_nonneg s0.le j0.le
    have f1 := e2 W; have f2 := e2 m; have f3 := e2 J
    set Z := 1 / R.P.dt * R.P.epsdotScaleInv with hZ
    have g : 8.04 * Z * (X + M) + 1.003 * (Z * (3.04 * X + 1265 * (R.P.dt * W) + 60.4 * (R.P.dt * m) + 181 * (R.P.dt * J)))
        + 1.01 * (Z * (X + M))
        = (8.04 + 1.01) * (Z * X) + (8.04 + 1.01) * (Z * M) + 1.003 * (3.04 * (Z * X) + 1265 * (Z * (R.P.dt * W))
          + 60.4 * (Z * (R.P.dt * m)) + 181 * (Z * (R.P.dt * J))) := by ring
    rw [g, e1, e3, f1, f2, f3]
    linarith
  have := mul_le_mul_of_nonneg_right t hw.le
  linarith

end Run
end Flt
end Ecm
