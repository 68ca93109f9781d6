/- Helper lemmas about the power law slip kinetics. -/
import Verif.Model.Voce
import Mathlib.Analysis.SpecialFunctions.Pow.Deriv
import Mathlib.Analysis.SpecialFunctions.Log.Deriv

namespace Ecm
open Classical

theorem gamRatioMin_pos : 0 < gamRatioMin := by unfold gamRatioMin; norm_num
theorem gamRatioOvf_pos : 0 < gamRatioOvf := by unfold gamRatioOvf; norm_num

theorem Voce.tMin_pos (k : Voce) : 0 < k.tMin := Real.rpow_pos_of_pos gamRatioMin_pos _
theorem Voce.tMax_pos (k : Voce) : 0 < k.tMax := Real.rpow_pos_of_pos gamRatioOvf_pos _

theorem Voce.tMin_lt_tMax (k : Voce) (h : 0 < k.xm) : k.tMin < k.tMax :=
  Real.rpow_lt_rpow gamRatioMin_pos.le (by unfold gamRatioMin gamRatioOvf; norm_num) h

theorem Voce.absFrac {g tau : ℝ} (hg : 0 < g) : |tau * (1 / g)| = |tau| / g := by
  rw [abs_mul, abs_of_pos (one_div_pos.2 hg)]; ring

/-- the three branches of evalGdot -/
theorem Voce.evalGdot_low (k : Voce) {g tau : ℝ} (hg : 0 < g) (h : |tau| / g ≤ k.tMin) :
    k.evalGdot g tau = { gdot := 0, dtau := 0, dg := 0 } := by
  simp only [Voce.evalGdot, Voce.absFrac hg, if_neg (not_lt.2 h)]

theorem Voce.evalGdot_high (k : Voce) (hm : 0 < k.xm) {g tau : ℝ} (hg : 0 < g)
    (h : k.tMax < |tau| / g) :
    k.evalGdot g tau = { gdot := copysign (gamRatioOvffx * k.gamW) tau, dtau := 0, dg := 0 } := by
  simp only [Voce.evalGdot, Voce.absFrac hg, if_pos h, if_pos ((k.tMin_lt_tMax hm).trans h)]

theorem Voce.evalGdot_mid (k : Voce) {g tau : ℝ} (hg : 0 < g) (h1 : k.tMin < |tau| / g)
    (h2 : |tau| / g ≤ k.tMax) :
    k.evalGdot g tau = { gdot := k.gamW * (|tau| / g) ^ k.xn * (tau / g)
                         dtau := k.gamW * (|tau| / g) ^ k.xn * k.xnn / g
                         dg := -(k.gamW * (|tau| / g) ^ k.xn * k.xnn / g) * (tau / g) } := by
  have hp : 0 < |tau| / g := k.tMin_pos.trans h1
  have e : Real.exp (k.xn * Real.log (|tau| / g)) = (|tau| / g) ^ k.xn := by
    rw [Real.rpow_def_of_pos hp, mul_comm]
  simp only [Voce.evalGdot, Voce.absFrac hg, if_pos h1, if_neg (not_lt.2 h2), e]
  congr 1 <;> ring

theorem Voce.xn_add_one (k : Voce) : k.xn + 1 = k.xnn := by unfold Voce.xn; ring

/-- value in the active range -/
theorem Voce.gdot_mid (k : Voce) {g tau : ℝ} (hg : 0 < g) (h1 : k.tMin < |tau| / g)
    (h2 : |tau| / g ≤ k.tMax) :
    (k.evalGdot g tau).gdot = (if 0 < tau then 1 else -1) * (k.gamW * (|tau| / g) ^ k.xnn) := by
  have hp : 0 < |tau| / g := k.tMin_pos.trans h1
  rw [k.evalGdot_mid hg h1 h2, ← k.xn_add_one, Real.rpow_add_one hp.ne']
  have ht : tau ≠ 0 := by rintro rfl; simp at hp
  split_ifs with h
  · rw [abs_of_pos h]; ring
  · rw [abs_of_neg (lt_of_le_of_ne (not_lt.1 h) ht)]; ring

end Ecm
