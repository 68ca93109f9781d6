/- Value of the dislocation kinetics with the exponents of the tests, where both the drag limited and the
   activated rate count and jumps against the stress do not. -/
import Verif.Lemmas.KMBalD
import Verif.Lemmas.Numeric

namespace Ecm

/-- activated rate with p = 0.28, q = 1.34, activation constant 200/3, reference rate 40, power-law exponent
    `N`, at normalised stress `t` -/
noncomputable def kmW (N t : ℝ) : ℝ :=
  40 * Real.exp (-(200 / 3) * (1 - t ^ (7 / 25 : ℝ)) ^ (67 / 50 : ℝ)) + 400 * t ^ N

/-- drag limited rate with reference rate 250 -/
noncomputable def kmR (x : ℝ) : ℝ := 250 * (1 - Real.exp (-x))

/-- the two in series -/
noncomputable def kmF (N t x : ℝ) : ℝ := 1 / (1 / kmW N t + 1 / kmR x)

theorem pow_between {t l u : ℝ} {a b : ℕ} (hb : b ≠ 0) (ht : 0 ≤ t) (hl : 0 ≤ l) (hu : 0 ≤ u)
    (h1 : l ^ b ≤ t ^ a) (h2 : t ^ a ≤ u ^ b) : l ≤ t ^ ((a : ℝ) / b) ∧ t ^ ((a : ℝ) / b) ≤ u := by
  have e : t ^ ((a : ℝ) / b) = (t ^ a) ^ ((1 : ℝ) / b) := by
    rw [← Real.rpow_natCast, ← Real.rpow_mul ht]; congr 1; ring
  rw [e]
  exact root_between hb (pow_nonneg ht a) hl hu h1 h2

/-- the exponential of a negative number in [-8, 0] -/
theorem exp_eighth_le {x c : ℝ} (hx : |x| ≤ 1)
    (h : ∑ m ∈ Finset.range 20, x ^ m / m.factorial + 21 / (2432902008176640000 * 20) ≤ c) :
    Real.exp (8 * x) ≤ c ^ 8 := by
  have h1 := exp_taylor hx
  have h2 : |x| ^ 20 ≤ 1 := pow_le_one₀ (abs_nonneg _) hx
  have h3 : |x| ^ 20 * (21 / (2432902008176640000 * 20)) ≤ 21 / (2432902008176640000 * 20) :=
    mul_le_of_le_one_left (by norm_num) h2
  have h4 := (abs_le.1 (h1.trans h3)).2
  have e : Real.exp (8 * x) = Real.exp x ^ 8 := by rw [← Real.exp_nat_mul]; norm_num
  rw [e]
  exact pow_le_pow_left₀ (Real.exp_pos x).le (by linarith) 8

theorem le_exp_eighth {x c : ℝ} (hx : |x| ≤ 1) (hc : 0 ≤ c)
    (h : c ≤ ∑ m ∈ Finset.range 20, x ^ m / m.factorial - 21 / (2432902008176640000 * 20)) :
    c ^ 8 ≤ Real.exp (8 * x) := by
  have h1 := exp_taylor hx
  have h2 : |x| ^ 20 ≤ 1 := pow_le_one₀ (abs_nonneg _) hx
  have h3 : |x| ^ 20 * (21 / (2432902008176640000 * 20)) ≤ 21 / (2432902008176640000 * 20) :=
    mul_le_of_le_one_left (by norm_num) h2
  have h4 := (abs_le.1 (h1.trans h3)).1
  have e : Real.exp (8 * x) = Real.exp x ^ 8 := by rw [← Real.exp_nat_mul]; norm_num
  rw [e]
  exact pow_le_pow_left₀ hc (by linarith) 8

theorem harmonic_le {w r w' r' : ℝ} (hw : 0 < w) (hr : 0 < r) (h1 : w ≤ w') (h2 : r ≤ r') :
    1 / (1 / w + 1 / r) ≤ 1 / (1 / w' + 1 / r') := by
  have := one_div_le_one_div_of_le hw h1
  have := one_div_le_one_div_of_le hr h2
  have : 0 < 1 / w' := one_div_pos.2 (hw.trans_le h1)
  have : 0 < 1 / r' := one_div_pos.2 (hr.trans_le h2)
  exact one_div_le_one_div_of_le (by linarith) (by linarith)

theorem kmW_pos (N : ℝ) {t : ℝ} (ht : 0 ≤ t) : 0 < kmW N t := by
  unfold kmW
  have := Real.rpow_nonneg ht N
  positivity

theorem kmR_pos {x : ℝ} (hx : 0 < x) : 0 < kmR x := by
  unfold kmR
  have : Real.exp (-x) < 1 := by rw [Real.exp_lt_one_iff]; linarith
  linarith

/-- upper bound of the activated rate from rational certificates -/
theorem kmW_le {N t u l a c : ℝ} (hN : 50 ≤ N) (ht : 0 ≤ t) (ht1 : t ≤ 1) (hu : 0 ≤ u) (hu1 : u ≤ 1)
    (h1 : t ^ 7 ≤ u ^ 25) (hl : 0 ≤ l) (h2 : l ^ 50 ≤ (1 - u) ^ 67) (ha : a ≤ 25 / 3 * l)
    (ha0 : 0 ≤ a) (ha1 : a ≤ 1)
    (h3 : ∑ m ∈ Finset.range 20, (-a) ^ m / m.factorial + 21 / (2432902008176640000 * 20) ≤ c) :
    kmW N t ≤ 40 * c ^ 8 + 400 * t ^ 50 := by
  have e1 : t ^ (7 / 25 : ℝ) ≤ u := by
    have := (pow_between (a := 7) (b := 25) (by norm_num) ht (l := 0) le_rfl hu (by simp; positivity) h1).2
    simpa using this
  have e0 : 0 ≤ t ^ (7 / 25 : ℝ) := Real.rpow_nonneg ht _
  have e2 : l ≤ (1 - t ^ (7 / 25 : ℝ)) ^ (67 / 50 : ℝ) := by
    have h4 : l ≤ (1 - u) ^ (67 / 50 : ℝ) := by
      have := (pow_between (a := 67) (b := 50) (t := 1 - u) (l := l) (u := 1) (by norm_num) (by linarith) hl
        (by norm_num) h2 (by rw [one_pow]; exact pow_le_one₀ (by linarith) (by linarith))).1
      simpa using this
    exact h4.trans (Real.rpow_le_rpow (by linarith) (by linarith) (by norm_num))
  have e3 : Real.exp (-(200 / 3) * (1 - t ^ (7 / 25 : ℝ)) ^ (67 / 50 : ℝ)) ≤ c ^ 8 := by
    refine le_trans (Real.exp_le_exp.2 ?_) (exp_eighth_le (x := -a) (by rw [abs_neg, abs_of_nonneg ha0]; exact ha1) h3)
    linarith
  have e4 : t ^ N ≤ t ^ 50 := by
    rcases ht.eq_or_lt with h | h
    · rw [← h, Real.zero_rpow (by linarith)]; norm_num
    · rw [← Real.rpow_natCast]
      exact Real.rpow_le_rpow_of_exponent_ge h ht1 (by simpa using hN)
  unfold kmW
  linarith

/-- lower bound of the activated rate from rational certificates -/
theorem le_kmW {N t l u a c : ℝ} (ht : 0 ≤ t) (ht1 : t ≤ 1) (hl : 0 ≤ l) (hl1 : l ≤ 1)
    (h1 : l ^ 25 ≤ t ^ 7) (hu : 0 ≤ u) (h2 : (1 - l) ^ 67 ≤ u ^ 50) (ha : 25 / 3 * u ≤ a)
    (ha0 : 0 ≤ a) (ha1 : a ≤ 1) (hc : 0 ≤ c)
    (h3 : c ≤ ∑ m ∈ Finset.range 20, (-a) ^ m / m.factorial - 21 / (2432902008176640000 * 20)) :
    40 * c ^ 8 ≤ kmW N t := by
  have e1 : l ≤ t ^ (7 / 25 : ℝ) := by
    have := (pow_between (a := 7) (b := 25) (u := 1) (by norm_num) ht hl (by norm_num) h1
      (by rw [one_pow]; exact pow_le_one₀ ht ht1)).1
    simpa using this
  have e0 : t ^ (7 / 25 : ℝ) ≤ 1 := Real.rpow_le_one ht ht1 (by norm_num)
  have e2 : (1 - t ^ (7 / 25 : ℝ)) ^ (67 / 50 : ℝ) ≤ u := by
    have h4 : (1 - l) ^ (67 / 50 : ℝ) ≤ u := by
      have := (pow_between (a := 67) (b := 50) (t := 1 - l) (l := 0) (by norm_num) (by linarith) le_rfl
        hu (by simp; exact pow_nonneg (by linarith) _) h2).2
      simpa using this
    exact (Real.rpow_le_rpow (by linarith) (by linarith) (by norm_num)).trans h4
  have e3 : c ^ 8 ≤ Real.exp (-(200 / 3) * (1 - t ^ (7 / 25 : ℝ)) ^ (67 / 50 : ℝ)) := by
    refine le_trans (le_exp_eighth (x := -a) (by rw [abs_neg, abs_of_nonneg ha0]; exact ha1) hc h3)
      (Real.exp_le_exp.2 ?_)
    linarith
  have e4 : 0 ≤ t ^ N := Real.rpow_nonneg ht N
  unfold kmW
  linarith

theorem kmR_between {x l u : ℝ} (hx : |x| ≤ 1)
    (hl : l ≤ 250 * (1 - ∑ m ∈ Finset.range 20, (-x) ^ m / m.factorial - 21 / (2432902008176640000 * 20)))
    (hu : 250 * (1 - ∑ m ∈ Finset.range 20, (-x) ^ m / m.factorial + 21 / (2432902008176640000 * 20)) ≤ u) :
    l ≤ kmR x ∧ kmR x ≤ u := by
  have h1 := exp_taylor (x := -x) (by rwa [abs_neg])
  have h2 : |-x| ^ 20 ≤ 1 := pow_le_one₀ (abs_nonneg _) (by rwa [abs_neg])
  have h3 : |-x| ^ 20 * (21 / (2432902008176640000 * 20)) ≤ 21 / (2432902008176640000 * 20) :=
    mul_le_of_le_one_left (by norm_num) h2
  obtain ⟨a, b⟩ := abs_le.1 (h1.trans h3)
  unfold kmR
  constructor <;> linarith

theorem kmF_continuousOn {N gA gI D : ℝ} {s : Set ℝ} (hN : 0 ≤ N) (h : ∀ y ∈ s, 0 < y - gA) (hI : 0 < gI)
    (hD : 0 < D) : ContinuousOn (fun y => kmF N ((y - gA) * gI) ((y - gA) * D)) s := by
  have hW : Continuous fun y => kmW N ((y - gA) * gI) := by
    unfold kmW
    have h1 : Continuous fun y : ℝ => ((y - gA) * gI) ^ (7 / 25 : ℝ) :=
      Continuous.rpow_const (by fun_prop) fun _ => Or.inr (by norm_num)
    have h2 : Continuous fun y : ℝ => (1 - ((y - gA) * gI) ^ (7 / 25 : ℝ)) ^ (67 / 50 : ℝ) :=
      Continuous.rpow_const (by fun_prop) fun _ => Or.inr (by norm_num)
    have h3 : Continuous fun y : ℝ => ((y - gA) * gI) ^ N :=
      Continuous.rpow_const (by fun_prop) fun _ => Or.inr hN
    fun_prop
  have hR : Continuous fun y => kmR ((y - gA) * D) := by unfold kmR; fun_prop
  unfold kmF
  refine ContinuousOn.div continuousOn_const
    ((continuousOn_const.div hW.continuousOn fun y hy => (kmW_pos N (mul_pos (h y hy) hI).le).ne').add
      (continuousOn_const.div hR.continuousOn fun y hy => (kmR_pos (mul_pos (h y hy) hD)).ne')) fun y hy => ?_
  have h1 := one_div_pos.2 (kmW_pos N (mul_pos (h y hy) hI).le)
  have h2 := one_div_pos.2 (kmR_pos (mul_pos (h y hy) hD))
  linarith

namespace KMBalD
variable {nV : ℕ} (k : KMBalD nV)

theorem mts_pos (hp1 : k.pOne = false) (hq1 : k.qOne = false) (hp : k.p = 28 / 100) (hq : k.q = 134 / 100)
    (cE d : ℝ) {t : ℝ} (h0 : 1 / 3 ≤ t) (h1 : t ≤ 3 / 5) :
    (k.mtsDG cE d t).1 = -cE * (1 - t ^ (7 / 25 : ℝ)) ^ (67 / 50 : ℝ) := by
  have ht : 0 < t := by linarith
  have hpf : k.pFunc t = t ^ (7 / 25 : ℝ) := by
    unfold pFunc
    have h2 : ¬ |t| < idpTinySqrt := by
      rw [abs_of_pos ht, not_lt]; unfold idpTinySqrt; exact le_trans (by norm_num) h0
    rw [if_neg (by rw [hp1]; simp), if_neg h2, abs_of_pos ht, hp]
    unfold copysign
    rw [if_neg (not_lt.2 ht.le), abs_of_nonneg (Real.rpow_nonneg ht.le _)]
    norm_num
  have hle : t ^ (7 / 25 : ℝ) ≤ 9 / 10 := by
    have := (pow_between (a := 7) (b := 25) (t := 3 / 5) (l := 0) (u := 9 / 10) (by norm_num) (by norm_num)
      le_rfl (by norm_num) (by norm_num) (by norm_num)).2
    refine (Real.rpow_le_rpow ht.le h1 (by norm_num)).trans ?_
    simpa using this
  rw [mtsDG_fst, hpf]
  unfold qPow
  rw [if_neg (by rw [not_lt]; unfold idpTinySqrt; norm_num; linarith), if_neg (by rw [hq1]; simp), hq]
  norm_num

theorem mts_neg (hp1 : k.pOne = false) (hq1 : k.qOne = false) (hp : k.p = 28 / 100) (hq : k.q = 134 / 100)
    (d : ℝ) {t : ℝ} (h0 : 31 / 50 ≤ t) :
    (k.mtsDG (200 / 3) d (-t)).1 < lnGamRatioMin := by
  have ht : 0 < t := by linarith
  have hpf : k.pFunc (-t) = -t ^ (7 / 25 : ℝ) := by
    unfold pFunc
    have h2 : ¬ |-t| < idpTinySqrt := by
      rw [abs_neg, abs_of_pos ht, not_lt]; unfold idpTinySqrt; exact le_trans (by norm_num) h0
    rw [if_neg (by rw [hp1]; simp), if_neg h2, abs_neg, abs_of_pos ht, hp]
    unfold copysign
    rw [if_pos (by linarith), abs_of_nonneg (Real.rpow_nonneg ht.le _)]
    norm_num
  have hle : 87 / 100 ≤ t ^ (7 / 25 : ℝ) := by
    have := (pow_between (a := 7) (b := 25) (t := 31 / 50) (l := 87 / 100) (u := 1) (by norm_num) (by norm_num)
      (by norm_num) (by norm_num) (by norm_num) (by norm_num)).1
    refine le_trans ?_ (Real.rpow_le_rpow (by norm_num) h0 (by norm_num))
    simpa using this
  have hge : 22 / 10 ≤ (1 - -t ^ (7 / 25 : ℝ)) ^ (67 / 50 : ℝ) := by
    have := (pow_between (a := 67) (b := 50) (t := 187 / 100) (l := 22 / 10) (u := 3) (by norm_num) (by norm_num)
      (by norm_num) (by norm_num) (by norm_num) (by norm_num)).1
    refine le_trans ?_ (Real.rpow_le_rpow (by norm_num) (show (187 / 100 : ℝ) ≤ _ by linarith) (by norm_num))
    simpa using this
  rw [mtsDG_fst, hpf]
  unfold qPow
  rw [if_neg (by rw [not_lt]; unfold idpTinySqrt; norm_num; linarith), if_neg (by rw [hq1]; simp), hq]
  norm_num at hge ⊢
  unfold lnGamRatioMin
  norm_num
  linarith

/-- the law with the parameters of the tests, around the stresses reached there -/
theorem km_point (hp1 : k.pOne = false) (hq1 : k.qOne = false) (hp : k.p = 28 / 100) (hq : k.q = 134 / 100)
    (hw : k.wrD = 2 / 100) (hmu : k.muRef = 1) {g gI gA xn N tMin tMax τ : ℝ} (hx : xn + 1 = N)
    (hI : (if k.withGA then 1 / k.tauA else 1 / g) = gI) (hA : (if k.withGA then g else k.tauA) = gA)
    (hg : 0 < if k.withGA then k.tauA else g) (hmin : tMin ≤ 1 / 4) (hmax : 1 ≤ tMax)
    (hd : 1 / 10 ^ 5 ≤ τ - gA) (h0 : 1 / 3 ≤ (τ - gA) * gI) (h1 : (τ - gA) * gI ≤ 3 / 5)
    (h2 : 31 / 50 ≤ (τ + gA) * gI) (hA0 : 0 ≤ gA) :
    (k.evalGdotSel 40 250 g (200 / 3) xn N tMin tMax τ).gdot = kmF N ((τ - gA) * gI) ((τ - gA) * 50) := by
  have hτ : 0 < τ := by linarith
  have e1 : (k.mtsDG (200 / 3) 1 ((τ - gA) * gI)).1 = _ := k.mts_pos hp1 hq1 hp hq (200 / 3) 1 h0 h1
  have hm : k.MainBranch false true 40 (200 / 3 * k.muRef) tMin tMax gI gA |τ| := by
    rw [hmu, mul_one, abs_of_pos hτ]
    constructor
    · rw [hw, lt_div_iff₀ (by norm_num)]; unfold idpEpsSqrt; norm_num; linarith
    · linarith
    · linarith
    · simp only [if_true]; linarith
    · rw [e1]
      have h3 : (1 - ((τ - gA) * gI) ^ (7 / 25 : ℝ)) ^ (67 / 50 : ℝ) ≤ 1 := by
        have h4 : 0 ≤ ((τ - gA) * gI) ^ (7 / 25 : ℝ) := Real.rpow_nonneg (by linarith) _
        have h5 : ((τ - gA) * gI) ^ (7 / 25 : ℝ) ≤ 1 := Real.rpow_le_one (by linarith) (by linarith) (by norm_num)
        exact Real.rpow_le_one (by linarith) (by linarith) (by norm_num)
      unfold lnGamRatioMin
      norm_num
      linarith
    · simp only [Bool.false_eq_true, if_false]
      rw [show (-τ - gA) * gI = -((τ + gA) * gI) by ring]
      exact k.mts_neg hp1 hq1 hp hq 1 h2
  have := k.sel_main (gamR := 250) hτ.ne' hx hg (by rw [hI, hA]; exact hm)
  rw [this]
  simp only [hI, hA, hmu, mul_one, abs_of_pos hτ, wRate, jump, e1, Bool.false_eq_true, if_false, if_true, sub_zero]
  have hx0 : (τ - gA) / k.wrD = (τ - gA) * 50 := by rw [hw]; ring
  rw [hx0]
  have eW : 40 * Real.exp (-(200 / 3) * (1 - ((τ - gA) * gI) ^ (7 / 25 : ℝ)) ^ (67 / 50 : ℝ))
      + 40 * 10 * ((τ - gA) * gI) ^ N = kmW N ((τ - gA) * gI) := by unfold kmW; norm_num
  have eR : 250 * (1 - Real.exp (-((τ - gA) * 50))) = kmR ((τ - gA) * 50) := rfl
  rw [eW, eR]
  have p1 := one_div_pos.2 (kmW_pos N (t := (τ - gA) * gI) (by linarith))
  have p2 := one_div_pos.2 (kmR_pos (x := (τ - gA) * 50) (by linarith))
  unfold copysign kmF
  rw [if_neg (not_lt.2 hτ.le), abs_of_pos (one_div_pos.2 (by linarith))]

end KMBalD

end Ecm
