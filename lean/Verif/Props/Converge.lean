/- Property theorems C73: the updates converge to the solution of the rate equations of the crystal as the
   time step goes to zero (src/ecmech/ECMech_evptn.h, computeRJ and getResponseSngl). -/
import Verif.Lemmas.ConvergeStep
import Verif.Props.Solvable
import Verif.Props.Objectivity

namespace Ecm.Props
open Ecm Spec Matrix

variable {n nH : ℕ}

/-- slip rates of the law `g` at elastic strain `E`, strengths `h` and cube root `a` of the relative volume:
    `g` is evaluated at the resolved shear stress of the Kirchhoff stress -/
noncomputable def slipRates (el : Elast) (m s : Fin n → V3) (g : Fin n → ℝ → Vec nH → ℝ) (a : ℝ) (E : T3)
    (h : Vec nH) : Vec n :=
  fun i => g i (dot (s i) (((1 / a) • refStress el E).mulVec (m i))) h

/-- the rate equations of an elasto-viscoplastic cubic crystal over the time interval `[0, T]`: elastic
    strain `E`, lattice rotation `R` and strengths `h` follow the imposed deformation rate `D`, spin `w` and
    cube root `a` of the relative volume, with the slip law `g` and the hardening law `H` -/
structure CrystalMotion (el : Elast) (m s : Fin n → V3) (g : Fin n → ℝ → Vec nH → ℝ)
    (H : Vec nH → Vec n → Vec nH) (D : ℝ → T3) (w : ℝ → V3) (a : ℝ → ℝ) (T : ℝ)
    (E R : ℝ → T3) (h : ℝ → Vec nH) : Prop where
  dev : ∀ t ∈ Set.Icc 0 T, IsDev (E t)
  rot : ∀ t ∈ Set.Icc 0 T, IsRot (R t)
  rate : ∀ t ∈ Set.Icc 0 T, ∃ (Edot : T3) (ω : V3),
    Balance (a t) 1 (D t) (w t) (R t) (E t) Edot (slipGrad (slipRates el m s g (a t) (E t) (h t)) s m) ω ∧
    (∀ i j, HasDerivWithinAt (fun u => E u i j) (Edot i j) (Set.Icc 0 T) t) ∧
    (∀ i j, HasDerivWithinAt (fun u => R u i j) ((R t * crossMat ω) i j) (Set.Icc 0 T) t) ∧
    ∀ i, HasDerivWithinAt (fun u => h u i) (H (h t) (slipRates el m s g (a t) (E t) (h t)) i)
      (Set.Icc 0 T) t

/-- the slip rates of the kinetics are within `ε` of the law `g` for strengths in `Hr` and resolved shear
    stresses up to `b` -/
def LawWithin (K : Kin n nH) (g : Fin n → ℝ → Vec nH → ℝ) (Hr : Set (Vec nH)) (b ε : ℝ) : Prop :=
  ∀ p T h v sc, K.getVals p T h = .ok (v, sc) → h ∈ Hr → ∀ s τ, |τ| ≤ b →
    |(K.evalGdot v s τ).gdot - g s τ h| ≤ ε

/-- a successful update of the strengths is a backward Euler step of the law `H` within `η` -/
def HardenWithin (K : Kin n nH) (H : Vec nH → Vec n → Vec nH) (Hr : Set (Vec nH)) (η : ℝ) : Prop :=
  ∀ h dt γ h' k, 0 < dt → h ∈ Hr → K.updateH h dt γ = .ok (h', k) →
    ∀ i, |h' i - h i - dt * H h' γ i| ≤ η

/-- the stored state differs from strain `E`, rotation `R` and strengths `h` by at most `r` in every
    component -/
def Near (A : Hist nH n) (E R : T3) (h : Vec nH) (r : ℝ) : Prop :=
  (∀ i j, |vecdToSymm A.e i j - E i j| ≤ r) ∧ (∀ i j, |quatToTensor A.q i j - R i j| ≤ r) ∧
    ∀ i, |A.h i - h i| ≤ r

/-- strain and strengths of a stored state lie within given bounds -/
def Within (A : Hist nH n) (B : ℝ) (Hr : Set (Vec nH)) : Prop :=
  (∀ i j, |vecdToSymm A.e i j| ≤ B) ∧ A.h ∈ Hr

/-- `N` updates with equal time steps over `[0, T]`, driven by the values of `D`, `w` and `a` at the end of
    each step, with solvers that keep their contract at tolerances of at most `tol` -/
def Follows {M : Material n nH} {N : ℕ} (t : Trajectory M N) (D : ℝ → T3) (w : ℝ → V3) (a : ℝ → ℝ)
    (T tol : ℝ) : Prop :=
  ∀ k < N, (t.X k).solver.Sound ∧ (t.inp k).dt = T / N ∧ (t.inp k).tol ≤ tol ∧
    devOfSvecP (t.inp k).d = D (T / N * (k + 1 : ℕ)) ∧ (t.inp k).w = w (T / N * (k + 1 : ℕ)) ∧
    (t.inp k).vr 1 = a (T / N * (k + 1 : ℕ)) ^ 3

/-! ### from tensors to components -/

theorem sumsq_symmToVecd {A : T3} (hA : IsDev A) : ∑ i, symmToVecd A i ^ 2 = ddot A A := by
  have e2 := vecdToSymm_symmToVecd _ hA
  generalize symmToVecd A = u at e2
  rw [← e2]
  simp only [ddot, Fin.sum_univ_three, Fin.sum_univ_five, vecdToSymm, ofSvecP, vecdsToSvecP,
    Matrix.of_apply, Matrix.cons_val]
  sqr_ring

theorem symmToVecd_le {A : T3} (hA : IsDev A) {B : ℝ} (h : ∀ i j, |A i j| ≤ B) (i : Fin 5) :
    |symmToVecd A i| ≤ 3 * B := by
  have hB : 0 ≤ B := (abs_nonneg _).trans (h 0 0)
  refine abs_le_of_sq_le_sq ?_ (by positivity)
  have h1 : symmToVecd A i ^ 2 ≤ ddot A A := by
    rw [← sumsq_symmToVecd hA]
    exact Finset.single_le_sum (f := fun i => symmToVecd A i ^ 2) (fun i _ => sq_nonneg _) (Finset.mem_univ i)
  have h2 : ∀ i j, A i j * A i j ≤ B ^ 2 := fun i j => by
    have := h i j
    rw [← sq, ← sq_abs]; exact pow_le_pow_left₀ (abs_nonneg _) this 2
  have h3 : ddot A A ≤ 9 * B ^ 2 := by
    simp only [ddot, Fin.sum_univ_three]
    linarith [h2 0 0, h2 0 1, h2 0 2, h2 1 0, h2 1 1, h2 1 2, h2 2 0, h2 2 1, h2 2 2]
  nlinarith

theorem vecdToSymm_le {v : Vec 5} {B : ℝ} (h : ∀ i, |v i| ≤ B) (i j : Fin 3) :
    |vecdToSymm v i j| ≤ 3 * B := by
  have hB : 0 ≤ B := (abs_nonneg _).trans (h 0)
  refine abs_le_of_sq_le_sq ?_ (by positivity)
  have h0 := sumsq_symmToVecd (vecdToSymm_isDev v)
  rw [symmToVecd_vecdToSymm] at h0
  have h1 : vecdToSymm v i j ^ 2 ≤ ddot (vecdToSymm v) (vecdToSymm v) := by
    have a1 : vecdToSymm v i j ^ 2 ≤ ∑ j, vecdToSymm v i j * vecdToSymm v i j := by
      rw [sq]
      exact Finset.single_le_sum (f := fun j => vecdToSymm v i j * vecdToSymm v i j)
        (fun _ _ => mul_self_nonneg _) (Finset.mem_univ j)
    refine a1.trans ?_
    exact Finset.single_le_sum (f := fun i => ∑ j, vecdToSymm v i j * vecdToSymm v i j)
      (fun _ _ => Finset.sum_nonneg fun _ _ => mul_self_nonneg _) (Finset.mem_univ i)
  have h2 : ∀ i, v i ^ 2 ≤ B ^ 2 := fun i => by
    rw [← sq_abs]; exact pow_le_pow_left₀ (abs_nonneg _) (h i) 2
  rw [← h0, Fin.sum_univ_five] at h1
  nlinarith [h2 0, h2 1, h2 2, h2 3, h2 4]

theorem bl_symmToVecd {D : ℝ → T3} {S : Set ℝ} (h : ∀ i j, BL S fun t => D t i j) (i : Fin 5) :
    BL S fun t => symmToVecd (D t) i := by
  fin_cases i <;> simp [symmToVecd] <;>
    repeat first
      | exact h _ _
      | exact BL.const _
      | refine BL.add ?_ ?_
      | refine BL.sub ?_ ?_
      | refine BL.mul ?_ ?_
      | refine BL.neg ?_

theorem deriv_symmToVecd {E : ℝ → T3} {E' : T3} {S : Set ℝ} {t : ℝ}
    (h : ∀ i j, HasDerivWithinAt (fun u => E u i j) (E' i j) S t) (i : Fin 5) :
    HasDerivWithinAt (fun u => symmToVecd (E u) i) (symmToVecd E' i) S t := by
  fin_cases i <;> simp [symmToVecd] <;>
    repeat first
      | exact h _ _
      | exact HasDerivWithinAt.const_mul _ (h _ _)
      | exact (h _ _).fun_neg
      | refine HasDerivWithinAt.const_mul _ ?_
      | refine HasDerivWithinAt.fun_add ?_ ?_
      | refine HasDerivWithinAt.fun_sub ?_ ?_
      | refine HasDerivWithinAt.fun_neg ?_
      | refine HasDerivWithinAt.add ?_ ?_
      | refine HasDerivWithinAt.sub ?_ ?_

/-- the data of the rate equations in components -/
noncomputable def rateEq (el : Elast) (m s : Fin n → V3) (g : Fin n → ℝ → Vec nH → ℝ)
    (H : Vec nH → Vec n → Vec nH) (D : ℝ → T3) (w : ℝ → V3) (a : ℝ → ℝ) : RateEq n nH where
  K := el.kDiag
  P := (slipPQ m s).P
  Q := (slipPQ m s).Q
  g := g
  H := H
  d := fun t => symmToVecd (D t)
  w := w
  a := a

theorem tau_eq {c11 c12 c44 : ℝ} {m s : Fin n → V3} (hms : ∀ i, dot (m i) (s i) = 0)
    (g : Fin n → ℝ → Vec nH → ℝ) (H : Vec nH → Vec n → Vec nH) (D : ℝ → T3) (w : ℝ → V3) (a : ℝ → ℝ)
    {E : T3} (hE : IsDev E) (t : ℝ) (R : Fin 3 → Fin 3 → ℝ) (h : Vec nH) (i : Fin n) :
    (rateEq (.cubic c11 c12 c44) m s g H D w a).tau (t, symmToVecd E, R, h) i
      = dot (s i) (((1 / a t) • refStress (.cubic c11 c12 c44) E).mulVec (m i)) := by
  have hs : ((1 / a t) • refStress (.cubic c11 c12 c44) E).IsSymm := by
    have e1 := hE.1.apply 0 1
    have e2 := hE.1.apply 0 2
    have e3 := hE.1.apply 1 2
    ext i j
    fin_cases i <;> fin_cases j <;> simp [refStress, cubicStress, e1, e2, e3]
  rw [← C18_resolved_shear m s _ hs i (hms i), symmToVecd_smul]
  simp only [RateEq.tau, rateEq, vecsVaTM, Finset.mul_sum]
  refine Finset.sum_congr rfl fun k _ => ?_
  have hk : symmToVecd (refStress (.cubic c11 c12 c44) E) k
      = (Elast.cubic c11 c12 c44).kDiag k * symmToVecd E k := by
    obtain ⟨h1, h2, h3, h4⟩ := (isDev_iff E).1 hE
    fin_cases k <;> simp [symmToVecd, refStress, cubicStress, Elast.kDiag, h4] <;> sqr_ring
  simp only [Pi.smul_apply, smul_eq_mul, hk]
  ring

theorem vecsVMTa_rot' {R : T3} (hR : IsRot R) {A : T3} (hA : IsDev A) :
    vecsVMTa (getRotMatVecd R) (symmToVecd A) = symmToVecd (R.transpose * A * R) := by
  have h1 : R * R.transpose = 1 := hR.1
  have h2 : R.transpose * R = 1 := mul_eq_one_comm.1 h1
  have := getRotMatVecd_mulVec (R := R.transpose) (A := A) (by rw [transpose_transpose, h2])
    (by rw [transpose_transpose, h1]) hA
  rw [transpose_transpose, getRotMatVecd_transpose] at this
  exact this

/-- the rate equations in components -/
theorem solves_of {c11 c12 c44 : ℝ} {m s : Fin n → V3} (hms : ∀ i, dot (m i) (s i) = 0)
    {g : Fin n → ℝ → Vec nH → ℝ} {H : Vec nH → Vec n → Vec nH} {D : ℝ → T3} {w : ℝ → V3} {a : ℝ → ℝ}
    {T B : ℝ} {Hr : Set (Vec nH)} (hD : ∀ t ∈ Set.Icc 0 T, IsDev (D t)) (ha : ∀ t ∈ Set.Icc 0 T, 0 < a t)
    {E R : ℝ → T3} {h : ℝ → Vec nH}
    (hy : CrystalMotion (.cubic c11 c12 c44) m s g H D w a T E R h)
    (hB : ∀ t ∈ Set.Icc 0 T, (∀ i j, |E t i j| ≤ B) ∧ h t ∈ Hr) :
    (rateEq (.cubic c11 c12 c44) m s g H D w a).Solves T (3 * B) Hr
      fun t => (symmToVecd (E t), R t, h t) := by
  refine ⟨fun t ht => ⟨ht, symmToVecd_le (hy.dev t ht) (hB t ht).1, rot_abs_le (hy.rot t ht).1, (hB t ht).2⟩,
    fun t ht ι => ?_⟩
  obtain ⟨Edot, ω, hbal, d1, d2, d3⟩ := hy.rate t ht
  have hat := ha t ht
  have hE := hy.dev t ht
  have hR := hy.rot t ht
  set F := rateEq (.cubic c11 c12 c44) m s g H D w a with hF
  have hg : F.gam (t, symmToVecd (E t), R t, h t) = slipRates (.cubic c11 c12 c44) m s g (a t) (E t) (h t) := by
    funext i
    exact congrArg (fun x => g i x (h t)) (tau_eq hms g H D w a hE t (R t) (h t) i)
  set γ := slipRates (.cubic c11 c12 c44) m s g (a t) (E t) (h t) with hγ
  have hEd : IsDev Edot := by
    have h1 : Edot = a t • (R t).transpose * D t * R t - a t • dev (sym (slipGrad γ s m)) := by
      rw [smul_mul_assoc, smul_mul_assoc, ← hbal.strain, smul_add, smul_smul, mul_one_div_cancel hat.ne', one_smul]
      abel
    rw [h1, smul_mul_assoc, smul_mul_assoc]
    exact isDev_sub (isDev_smul _ (isDev_conjT hR.1 (hD t ht))) (isDev_smul _ (isDev_dev_sym _))
  have hed : F.ed (t, symmToVecd (E t), R t, h t) = symmToVecd Edot := by
    have h1 := congrArg symmToVecd hbal.strain
    rw [← vecsVMTa_rot' hR (hD t ht), symmToVecd_add, symmToVecd_smul, symmToVecd_dev, slipGrad,
      ← C18_plastic_rate] at h1
    funext i
    have h2 := congrFun h1 i
    simp only [Pi.add_apply, Pi.smul_apply, smul_eq_mul] at h2
    simp only [RateEq.ed, RateEq.edOf, hg]
    show a t * (vecsVMTa (getRotMatVecd (R t)) (symmToVecd (D t)) i - vecsVMa (slipPQ m s).P γ i) = _
    rw [← h2]
    field_simp
    ring
  have hom : F.om (t, symmToVecd (E t), R t, h t) = ω := by
    have h1 := hbal.spin
    rw [one_smul, slipGrad, ← C18_plastic_spin, ← (C08_commutator Edot (E t) hEd.1 hE.1).1] at h1
    funext i
    have h2 := congrFun h1 i
    rw [h2]
    simp only [RateEq.om, RateEq.omOf, hg, hed, Pi.add_apply, Pi.sub_apply, Pi.smul_apply, smul_eq_mul]
    show _ - vecsVMa (slipPQ m s).Q γ i + 1 / 2 * (1 / a t) * (1 / a t) * _ = _
    congr 1
    rw [show (1:ℝ) / (2 * a t ^ 2) = 1 / 2 * (1 / a t) * (1 / a t) by field_simp]
    rfl
  rcases ι with i | p | i
  · show HasDerivWithinAt (fun u => symmToVecd (E u) i) (F.ed _ i) _ _
    rw [hed]
    exact deriv_symmToVecd d1 i
  · show HasDerivWithinAt (fun u => R u p.1 p.2) (F.rd _ p.1 p.2) _ _
    unfold RateEq.rd
    rw [hom]
    exact d2 _ _
  · show HasDerivWithinAt (fun u => h u i) (F.hd _ i) _ _
    unfold RateEq.hd
    rw [hg]
    exact d3 i

/-- Lipschitz on a set with some constant -/
def LipOn {Z : Type*} [PseudoEMetricSpace Z] (f : Z → ℝ) (S : Set Z) : Prop := ∃ K, LipschitzOnWith K f S

theorem LipOn.bl {Z : Type*} [PseudoMetricSpace Z] {f : Z → ℝ} {S : Set Z} (h : LipOn f S)
    (hS : Bornology.IsBounded S) : BL S f := by
  obtain ⟨K, hK⟩ := h
  obtain ⟨r, hr⟩ := Metric.isBounded_iff.1 hS
  exact BL.of_lipschitz hK fun z hz z' hz' => hr hz hz'

/-- data of the rate equations that are regular enough for the convergence theorem: the imposed motion is
    Lipschitz in time, the relative volume positive, the slip law is Lipschitz in stress and strengths for
    bounded stress and strengths in `Hr`, and the hardening law in strengths and slip rates -/
structure RegularData (g : Fin n → ℝ → Vec nH → ℝ) (H : Vec nH → Vec n → Vec nH) (D : ℝ → T3) (w : ℝ → V3)
    (a : ℝ → ℝ) (T : ℝ) (Hr : Set (Vec nH)) : Prop where
  dev : ∀ t ∈ Set.Icc 0 T, IsDev (D t)
  D_lip : ∀ i j, LipOn (fun t => D t i j) (Set.Icc 0 T)
  w_lip : ∀ i, LipOn (fun t => w t i) (Set.Icc 0 T)
  a_lip : LipOn a (Set.Icc 0 T)
  a_pos : ∀ t ∈ Set.Icc 0 T, 0 < a t
  bdd : Bornology.IsBounded Hr
  g_lip : ∀ i b, LipOn (fun p : ℝ × Vec nH => g i p.1 p.2) {p | |p.1| ≤ b ∧ p.2 ∈ Hr}
  H_lip : ∀ i b, LipOn (fun p : Vec nH × Vec n => H p.1 p.2 i) {p | p.1 ∈ Hr ∧ ∀ s, |p.2 s| ≤ b}

theorem RegularData.regular {g : Fin n → ℝ → Vec nH → ℝ} {H : Vec nH → Vec n → Vec nH} {D : ℝ → T3}
    {w : ℝ → V3} {a : ℝ → ℝ} {T : ℝ} {Hr : Set (Vec nH)} (h : RegularData g H D w a T Hr) (hT : 0 ≤ T)
    (el : Elast) (m s : Fin n → V3) (B : ℝ) : ∃ c, (rateEq el m s g H D w a).Regular T B c Hr := by
  have hb : Bornology.IsBounded (Set.Icc 0 T) := Metric.isBounded_Icc 0 T
  have hc : ContinuousOn a (Set.Icc 0 T) := h.a_lip.choose_spec.continuousOn
  obtain ⟨t0, ht0, hmin⟩ := isCompact_Icc.exists_isMinOn (Set.nonempty_Icc.2 hT) hc
  have hbs : ∀ {k : ℕ} (b : ℝ), Bornology.IsBounded {p : Vec k | ∀ s, |p s| ≤ b} := fun {k} b => by
    refine (Metric.isBounded_closedBall (x := (0 : Vec k)) (r := max b 0)).subset fun p hp => ?_
    refine (dist_pi_le_iff (le_max_right _ _)).2 fun i => ?_
    rw [Real.dist_eq, Pi.zero_apply, sub_zero]
    exact (hp i).trans (le_max_left _ _)
  refine ⟨a t0, h.a_pos t0 ht0, bl_symmToVecd fun i j => (h.D_lip i j).bl hb, fun i => (h.w_lip i).bl hb, h.a_lip.bl hb,
    fun t ht => hmin ht, fun i b => (h.g_lip i b).bl ?_, fun i b => (h.H_lip i b).bl ?_⟩
  · refine ((Metric.isBounded_Icc (-b) b).prod h.bdd).subset fun p hp => ⟨abs_le.1 hp.1, hp.2⟩
  · exact (h.bdd.prod (hbs b)).subset fun p hp => ⟨hp.1, hp.2⟩

/-- strains within `B` have resolved shear stresses within `b` -/
def ShearAtMost (el : Elast) (m s : Fin n → V3) (a : ℝ → ℝ) (T B b : ℝ) : Prop :=
  ∀ E, IsDev E → (∀ i j, |E i j| ≤ B) → ∀ t ∈ Set.Icc 0 T, ∀ i,
    |dot (s i) (((1 / a t) • refStress el E).mulVec (m i))| ≤ b

theorem total_bound {C C1 T dt δ tol ε η N d0 : ℝ} (C0 : 0 ≤ C) (hC1 : 1 ≤ C1) (hT : 0 ≤ T) (hdt : 0 ≤ dt)
    (hδ : 0 ≤ δ) (htol : 0 ≤ tol) (hε : 0 ≤ ε) (hη : 0 ≤ η) (hN : 0 ≤ N) (hdtN : N * dt = T)
    (hd0 : d0 ≤ 3 * δ) :
    3 * (C * (d0 + dt + N * (C1 * (tol * (dt + 1 / 10 ^ 6) + dt * ε + η + 1 / 10 ^ 88))))
      ≤ 9 * C * (1 + C1 * (T + 1)) * (δ + dt + tol + ε + N * (tol / 10 ^ 6 + η + 1 / 10 ^ 88)) := by
  obtain ⟨r, hr⟩ : ∃ r : ℝ, r = 1 / 10 ^ 88 := ⟨_, rfl⟩
  have hr0 : 0 ≤ r := by rw [hr]; positivity
  rw [← hr]
  obtain ⟨p, hp⟩ : ∃ p : ℝ, p = N * (tol / 10 ^ 6 + η + r) := ⟨_, rfl⟩
  have hp0 : 0 ≤ p := by rw [hp]; positivity
  have hC10 : 0 ≤ C1 := by linarith
  have e1 : N * (C1 * (tol * (dt + 1 / 10 ^ 6) + dt * ε + η + r)) = C1 * (T * (tol + ε) + p) := by
    rw [hp, ← hdtN]; ring
  rw [← hp, e1]
  have e2 : T * (tol + ε) + p ≤ (T + 1) * (tol + ε + p) := by
    nlinarith [mul_nonneg hT hp0]
  have e3 := mul_le_mul_of_nonneg_left e2 hC10
  have e4 : d0 + dt + C1 * (T * (tol + ε) + p) ≤ 3 * ((1 + C1 * (T + 1)) * (δ + dt + tol + ε + p)) := by
    have p2 : 0 ≤ C1 * (T + 1) := by positivity
    have p3 := mul_nonneg p2 (show 0 ≤ tol + ε + p by positivity)
    have p4 := mul_nonneg p2 (show 0 ≤ δ + dt by positivity)
    nlinarith
  have e5 := mul_le_mul_of_nonneg_left e4 C0
  nlinarith

set_option maxHeartbeats 1000000 in
/-- C73 convergence to the rate equations of the crystal.  Over a fixed time interval `[0, T]`, `N` updates
    with time step `T / N` end in states that differ from the solution of the rate equations by at most a
    constant times: the difference at the start, the time step, the tolerance of the solver, the deviation of
    the slip law, and `N` times the absolute floor `tol / 10^6` of the residual scaling, the deviation of the
    hardening update and the rounding guard of the exponential map.  The constant does not depend on `N`,
    the tolerance, the material's kinetics, the solver or the trajectory. -/
theorem C73_convergence {c11 c12 c44 : ℝ} {m s : Fin n → V3} (hms : ∀ i, dot (m i) (s i) = 0)
    {g : Fin n → ℝ → Vec nH → ℝ} {H : Vec nH → Vec n → Vec nH} {D : ℝ → T3} {w : ℝ → V3} {a : ℝ → ℝ}
    {T B b A : ℝ} {Hr : Set (Vec nH)} (hT : 0 < T) (hreg : RegularData g H D w a T Hr)
    (hb : ShearAtMost (.cubic c11 c12 c44) m s a T B b) :
    ∃ C, 0 ≤ C ∧ ∃ N0 : ℕ, ∀ N ≥ N0, ∀ (M : Material n nH), M.el = .cubic c11 c12 c44 → M.geom = slipPQ m s →
      RefRateAtMost M.kin A → ∀ ε η tol δ : ℝ, 0 ≤ ε → ε ≤ 1 → 0 ≤ η → η ≤ 1 → 0 ≤ tol → tol ≤ 1 →
      LawWithin M.kin g Hr b ε → HardenWithin M.kin H Hr η →
      ∀ t : Trajectory M N, Follows t D w a T tol →
      dot (histOf (t.m 0)).q (histOf (t.m 0)).q = 1 →
      (∀ i, |(histOf (t.m 0)).gdot i
        - slipRates M.el m s g (a 0) (vecdToSymm (histOf (t.m 0)).e) (histOf (t.m 0)).h i| ≤ ε) →
      Within (histOf (t.m 0)) B Hr → (∀ k < N, Within (histOf (t.m' k)) B Hr) →
      ∀ E R h, CrystalMotion (.cubic c11 c12 c44) m s g H D w a T E R h →
      (∀ u ∈ Set.Icc 0 T, (∀ i j, |E u i j| ≤ B) ∧ h u ∈ Hr) →
      Near (histOf (t.m 0)) (E 0) (R 0) (h 0) δ →
      ∀ k < N, Near (histOf (t.m' k)) (E (T / N * (k + 1 : ℕ))) (R (T / N * (k + 1 : ℕ)))
        (h (T / N * (k + 1 : ℕ)))
        (C * (δ + T / N + tol + ε + N * (tol / 10 ^ 6 + η + 1 / 10 ^ 88))) := by
  obtain ⟨c, hF⟩ := hreg.regular hT.le (.cubic c11 c12 c44) m s (3 * B)
  set F := rateEq (.cubic c11 c12 c44) m s g H D w a with hFd
  obtain ⟨Ca, Ca0, hCa, -⟩ := hF.a
  obtain ⟨Cd, Cd0, hCd, -⟩ := BL.common hF.d
  set Dd := 5 * Cd with hDd
  have hDd1 : ∀ t ∈ Set.Icc 0 T, vecNorm (F.d t) ≤ Dd := fun t ht => by
    unfold vecNorm
    refine Real.sqrt_le_iff.2 ⟨by positivity, ?_⟩
    have : ∀ i, F.d t i * F.d t i ≤ Cd ^ 2 := fun i => by
      rw [← sq, ← sq_abs]; exact pow_le_pow_left₀ (abs_nonneg _) (hCd i t ht) 2
    rw [Fin.sum_univ_five]
    nlinarith [this 0, this 1, this 2, this 3, this 4]
  set C1 := (Ca + 1) * (|A| + Dd + 1) with hC1
  have hC11 : 1 ≤ C1 := by
    have : 0 ≤ |A| := abs_nonneg _
    nlinarith [mul_nonneg Ca0 this, mul_nonneg Ca0 (show 0 ≤ Dd by positivity)]
  obtain ⟨C, C0, N0, hC⟩ := RateEq.converge hF hT (C1 * (2 * T + 3))
  refine ⟨9 * C * (1 + C1 * (T + 1)), by positivity, max N0 1, fun N hN M hel hgeom hA ε η tol δ hε hε1 hη hη1
    htol htol1 hlaw hhard t ht hq0 hg0 hw0 hw E R h hy hyB hnear => ?_⟩
  have hN0 : N0 ≤ N := (le_max_left _ _).trans hN
  have hN1 : 1 ≤ N := (le_max_right _ _).trans hN
  have hNp : (0 : ℝ) < N := by exact_mod_cast hN1
  set dt := T / N with hdt
  have hdt0 : 0 < dt := by positivity
  have hdtN : N * dt = T := by rw [hdt]; field_simp
  have hdtT : dt ≤ T := div_le_self hT.le (by exact_mod_cast hN1)
  set ρ := C1 * (tol * (dt + 1 / 10 ^ 6) + dt * ε + η + 1 / 10 ^ 88) with hρ
  have htime : ∀ k ≤ N, dt * (k : ℕ) ∈ Set.Icc 0 T := fun k hk => by
    refine ⟨by positivity, ?_⟩
    rw [← hdtN, mul_comm]
    exact mul_le_mul_of_nonneg_right (by exact_mod_cast hk) hdt0.le
  let S : ℕ → Hist nH n := fun k => match k with
    | 0 => histOf (t.m 0)
    | k + 1 => histOf (t.m' k)
  have hS0 : S 0 = histOf (t.m 0) := rfl
  have hS1 : ∀ k, S (k + 1) = histOf (t.m' k) := fun _ => rfl
  have hSm : ∀ k < N, histOf (t.m k) = S k := fun k hk => by
    cases k with
    | zero => rfl
    | succ k => rw [hS1]; exact congrArg Hist.ofArray (t.link k hk)
  have hSq : ∀ k ≤ N, qn (S k).q = 1 := fun k hk => by
    cases k with
    | zero => rw [hS0, ← dot_self_quat, hq0]
    | succ k => rw [hS1, ← dot_self_quat]; exact (C07_step _ _ _ _ _ (t.ok k hk)).1
  have hSw : ∀ k ≤ N, Within (S k) B Hr := fun k hk => by
    cases k with
    | zero => exact hw0
    | succ k => exact hw k hk
  have hgam : ∀ k ≤ N, ∀ i, F.gam (histState (dt * k) (S k)) i
      = slipRates (.cubic c11 c12 c44) m s g (a (dt * k)) (vecdToSymm (S k).e) (S k).h i := fun k hk i => by
    have := tau_eq (c11 := c11) (c12 := c12) (c44 := c44) hms g H D w a (vecdToSymm_isDev (S k).e) (dt * k)
      (quatToTensor (S k).q) (S k).h i
    rw [symmToVecd_vecdToSymm] at this
    exact congrArg (fun x => g i x (S k).h) this
  have hstep : ∀ k < N, ∃ o : OkStep (t.X k) M (t.inp k) (t.m k) (t.m' k),
      (∀ i, |(S (k + 1)).e i - (S k).e i
        - dt * F.edOf (histState (dt * (k + 1 : ℕ)) (S (k + 1))) (S (k + 1)).gdot i| ≤ ρ) ∧
      (∃ ξ : Vec 3, (∀ i, |ξ i - dt * F.omOf (histState (dt * (k + 1 : ℕ)) (S (k + 1))) (S (k + 1)).gdot
          (fun i => ((S (k + 1)).e i - (S k).e i) / dt) i| ≤ ρ) ∧
        ∀ i j, |quatToTensor (S (k + 1)).q i j - quatToTensor (S k).q i j
          - (quatToTensor (S (k + 1)).q * crossMat ξ) i j| ≤ 9 * vecNorm ξ ^ 2 + ρ) ∧
      (∀ i, |(S (k + 1)).gdot i - F.gam (histState (dt * (k + 1 : ℕ)) (S (k + 1))) i| ≤ ε) ∧
      ∀ i, |(S (k + 1)).h i - (S k).h i - dt * H (S (k + 1)).h (S k).gdot i| ≤ ρ := fun k hk => by
    obtain ⟨o⟩ := getResponseSngl_ok (t.ok k hk)
    obtain ⟨hX, f1, f2, f3, f4, f5⟩ := ht k hk
    have hk1 := htime (k + 1) hk
    have hv := hA _ _ _ _ _ o.hV
    have hap := hreg.a_pos _ hk1
    have hd : F.d (dt * (k + 1 : ℕ)) = svecToVecd (t.inp k).d := by
      rw [svecToVecd_dev (by rw [f3]; exact hreg.dev _ hk1), f3]; rfl
    obtain ⟨r1, r2, r3, r4, -⟩ := o.compare hX F hel (by rw [hel]; rfl) (by rw [hgeom]; rfl)
      (by rw [hgeom]; rfl) (by rw [hSm k hk]; exact hSq k hk.le) (by rw [f1]; exact hdt0) hv.1 hd f4.symm hap
      f5.symm (S := tol * (|A| + Dd + 1 / 10 ^ 6 / dt)) (by
        rw [f1, ← hdt]
        have h1 := hDd1 _ hk1
        have h2 := hv.2.trans (le_abs_self A)
        refine mul_le_mul f2 (by linarith) ?_ htol
        have := hv.1.le
        have := vecNorm_nonneg (F.d (dt * (k + 1 : ℕ)))
        positivity)
    rw [f1, hSm k hk, ← hS1 k] at r1
    rw [f1, hSm k hk, ← hS1 k] at r2
    rw [← hS1 k] at r3 r4
    have hρ1 : dt * (tol * (|A| + Dd + 1 / 10 ^ 6 / dt)) ≤ (|A| + Dd + 1) * (tol * (dt + 1 / 10 ^ 6)) := by
      have e : dt * (tol * (|A| + Dd + 1 / 10 ^ 6 / dt)) = (|A| + Dd) * (tol * dt) + tol * (1 / 10 ^ 6) := by
        field_simp
      rw [e]
      have h1 : 0 ≤ |A| + Dd := by positivity
      have h2 : 0 ≤ tol * dt := by positivity
      have h3 : 0 ≤ tol * (1 / 10 ^ 6) := by positivity
      nlinarith [mul_nonneg h1 h3]
    have hρ2 : (Ca + 1) * ((|A| + Dd + 1) * (tol * (dt + 1 / 10 ^ 6))) ≤ ρ := by
      rw [hρ, hC1, ← mul_assoc]
      refine mul_le_mul_of_nonneg_left ?_ (by positivity)
      have : 0 ≤ dt * ε := by positivity
      have : (0:ℝ) ≤ 1 / 10 ^ 88 := by positivity
      linarith
    have hpos : 0 ≤ dt * (tol * (|A| + Dd + 1 / 10 ^ 6 / dt)) := by positivity
    have hae : a (dt * (k + 1 : ℕ)) ≤ Ca := (le_abs_self _).trans (hCa _ hk1)
    have hρη : η + 1 / 10 ^ 88 ≤ ρ := by
      have h1 : 0 ≤ tol * (dt + 1 / 10 ^ 6) + dt * ε := by positivity
      have h2 : (0:ℝ) ≤ 1 / 10 ^ 88 := by positivity
      have h3 : η + 1 / 10 ^ 88 ≤ tol * (dt + 1 / 10 ^ 6) + dt * ε + η + 1 / 10 ^ 88 := by linarith
      exact h3.trans (le_mul_of_one_le_left (by linarith) hC11)
    have hlin : dt * (tol * (|A| + Dd + 1 / 10 ^ 6 / dt)) ≤ ρ := by
      refine le_trans ?_ hρ2
      refine hρ1.trans (le_mul_of_one_le_left (by positivity) (by linarith))
    refine ⟨o, fun i => (r1 i).trans ?_, ?_, fun i => ?_, fun i => ?_⟩
    · refine le_trans ?_ hρ2
      have e : dt * (F.a (dt * (k + 1 : ℕ)) * (tol * (|A| + Dd + 1 / 10 ^ 6 / dt)))
          = a (dt * (k + 1 : ℕ)) * (dt * (tol * (|A| + Dd + 1 / 10 ^ 6 / dt))) := by
        show dt * (a (dt * (k + 1 : ℕ)) * _) = _
        ring
      rw [e]
      exact mul_le_mul (by linarith) hρ1 hpos (by linarith)
    · obtain ⟨ξ, q1, q2⟩ := r2
      refine ⟨ξ, fun i => (q1 i).trans hlin, fun i j => (q2 i j).trans ?_⟩
      have : (24:ℝ) / 10 ^ 90 ≤ 1 / 10 ^ 88 := by norm_num
      linarith
    · rw [r3 i]
      refine hlaw _ _ _ _ _ (r4 ▸ o.hV) (hSw (k + 1) hk).2 i _ ?_
      have := tau_eq (c11 := c11) (c12 := c12) (c44 := c44) hms g H D w a (vecdToSymm_isDev (S (k + 1)).e)
        (dt * (k + 1 : ℕ)) (quatToTensor (S (k + 1)).q) (S (k + 1)).h i
      rw [symmToVecd_vecdToSymm] at this
      have h3 := hb _ (vecdToSymm_isDev (S (k + 1)).e) (hSw (k + 1) hk).1 _ hk1 i
      rw [← this] at h3
      exact h3
    · have h1 := hhard _ _ _ _ _ (by rw [f1]; exact hdt0) (by
        show (histOf (t.m k)).h ∈ Hr
        rw [hSm k hk]; exact (hSw k hk.le).2) o.hH i
      rw [f1, ← r4] at h1
      have e1 : (Hist.ofArray (t.m k).hist).h = (S k).h := by rw [← hSm k hk]
      have e2 : (Hist.ofArray (t.m k).hist).gdot = (S k).gdot := by rw [← hSm k hk]
      rw [e1, e2] at h1
      refine h1.trans (le_trans ?_ hρη)
      have : (0:ℝ) ≤ 1 / 10 ^ 88 := by positivity
      linarith
  have hmain := hC N hN0 ρ ε (fun k => histState (dt * k) (S k)) (fun k => (S k).gdot)
    (fun t => (symmToVecd (E t), R t, h t)) (by positivity) (by
      rw [hρ]
      refine mul_le_mul_of_nonneg_left ?_ (by linarith)
      have h1 : tol * (dt + 1 / 10 ^ 6) ≤ 1 * (T + 1 / 10 ^ 6) :=
        mul_le_mul htol1 (by linarith) (by positivity) zero_le_one
      have h2 : dt * ε ≤ T * 1 := mul_le_mul hdtT hε1 hε hT.le
      have h3 : (1:ℝ) / 10 ^ 6 + 1 / 10 ^ 88 ≤ 1 := by norm_num
      linarith) hε hε1 (by
      rw [hρ]
      have h1 : dt * ε ≤ tol * (dt + 1 / 10 ^ 6) + dt * ε + η + 1 / 10 ^ 88 := by
        have : 0 ≤ tol * (dt + 1 / 10 ^ 6) := by positivity
        have : (0:ℝ) ≤ 1 / 10 ^ 88 := by positivity
        linarith
      exact h1.trans (le_mul_of_one_le_left (by positivity) hC11))
    (solves_of hms hreg.dev hreg.a_pos hy hyB)
    (fun k hk => ⟨htime k hk, fun i => by
        have := symmToVecd_le (vecdToSymm_isDev (S k).e) (hSw k hk).1 i
        rw [symmToVecd_vecdToSymm] at this
        exact this, rot_abs_le (isRot_of_unit (hSq k hk)).1, (hSw k hk).2⟩)
    (fun k _ => rfl) (fun k hk => by
      obtain ⟨o, r1, r2, r3, r4⟩ := hstep k hk
      refine ⟨?_, fun i => ?_, r3, r1, r2, r4⟩
      · show dt * ((k + 1 : ℕ) : ℝ) = dt * k + dt
        push_cast; ring
      · cases k with
        | zero =>
          have := hgam 0 (Nat.zero_le _) i
          rw [Nat.cast_zero, mul_zero, hS0] at this
          show |(histOf (t.m 0)).gdot i - F.gam (histState (dt * ((0 : ℕ) : ℝ)) (histOf (t.m 0))) i| ≤ ε
          rw [Nat.cast_zero, mul_zero, this, ← hel]
          exact hg0 i
        | succ k =>
          obtain ⟨o, r1, r2, r3, r4⟩ := hstep k (by omega)
          exact r3 i)
  intro k hk
  have hk1 := hmain (k + 1) hk
  have hδ0 : 0 ≤ δ := (abs_nonneg _).trans (hnear.1 0 0)
  have hd0 : dist (histState (dt * ((0 : ℕ) : ℝ)) (S 0)).2 (symmToVecd (E 0), R 0, h 0) ≤ 3 * δ := by
    refine RateEq.dist_le_crd (by positivity) fun ι => ?_
    rcases ι with i | p | i
    · have h1 := symmToVecd_le (isDev_sub (vecdToSymm_isDev (histOf (t.m 0)).e) (hy.dev 0 ⟨le_rfl, hT.le⟩))
        (B := δ) hnear.1 i
      rw [← symmToVecd_sub, symmToVecd_vecdToSymm] at h1
      exact h1
    · exact (hnear.2.1 p.1 p.2).trans (by linarith)
    · exact (hnear.2.2 i).trans (by linarith)
  set r := C * (dist (histState (dt * ((0 : ℕ) : ℝ)) (S 0)).2 (symmToVecd (E 0), R 0, h 0) + dt + N * ρ) with hr
  have hr0 : 0 ≤ r := by positivity
  have hrb : 3 * r ≤ 9 * C * (1 + C1 * (T + 1))
      * (δ + dt + tol + ε + N * (tol / 10 ^ 6 + η + 1 / 10 ^ 88)) := by
    exact total_bound C0 hC11 hT.le hdt0.le hδ0 htol hε hη hNp.le hdtN hd0
  have hcr : ∀ ι, |RateEq.crd (histState (dt * ((k + 1 : ℕ) : ℝ)) (S (k + 1))).2 ι
      - RateEq.crd (symmToVecd (E (dt * (k + 1 : ℕ))), R (dt * (k + 1 : ℕ)), h (dt * (k + 1 : ℕ))) ι| ≤ r :=
    fun ι => by
      exact (RateEq.crd_le_dist _ _ ι).trans hk1
  refine ⟨fun i j => le_trans ?_ hrb, fun i j => le_trans ?_ hrb, fun i => le_trans ?_ hrb⟩
  · have h1 : ∀ i, |((S (k + 1)).e - symmToVecd (E (dt * (k + 1 : ℕ)))) i| ≤ r := fun i => hcr (.inl i)
    have h2 := vecdToSymm_le h1 i j
    rw [← vecdToSymm_sub, vecdToSymm_symmToVecd _ (hy.dev _ (htime (k + 1) hk))] at h2
    exact h2
  · exact (hcr (.inr (.inl (i, j)))).trans (by linarith)
  · exact (hcr (.inr (.inr i))).trans (by linarith)

end Ecm.Props
