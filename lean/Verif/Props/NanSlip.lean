/- Property theorems C118: a NaN does not leave the power law (src/ecmech/ECMech_kinetics_VocePL.h:166-279,
   src/ecmech/ECMech_evptn.h:448-454, 668, 1187-1192). -/
import Verif.Model.NanSlip
import Verif.Props.Nan

namespace Ecm.Props
open Ecm Spec

/-- a value that is not NaN -/
def IsNum (x : Fl) : Prop := ∃ r, x = .num r

/-- C118 with numbers the slip law is that of the model without NaN. -/
theorem C118_numbers (k : Voce) {g : ℝ} (hg : g ≠ 0) (tau : ℝ) :
    voceGdotF k (.num g) (.num tau)
      = .ok ⟨.num (k.evalGdot g tau).gdot, .num (k.evalGdot g tau).dtau, .num (k.evalGdot g tau).dg⟩ := by
  unfold voceGdotF Voce.evalGdot
  rw [if_neg (by simpa using hg)]
  simp only [fl_inv, fl_mul, fl_abs, fl_lt]
  by_cases h1 : k.tMin < |tau * (1 / g)|
  · rw [if_pos h1, if_pos h1]
    by_cases h2 : k.tMax < |tau * (1 / g)|
    · rw [if_pos h2, if_pos h2]; rfl
    · rw [if_neg h2, if_neg h2]; rfl
  · rw [if_neg h1, if_neg h1]

/-- C118 with numbers the scale of the residual and the flow strength are those of the model without NaN. -/
theorem C118_numbers_update {n : ℕ} (P : Updst n) (ha : P.adotsRef ≠ 0) (he : vecNorm P.dSm ≠ 0) (xl : Vec 8) :
    scaleF (.num (vecNorm P.dSm)) (.num P.adotsRef) (.num P.dt) = .ok (.num P.epsdotScaleInv) ∧
    flowStrF (.num (vecdDeff P.dSm)) (.num (P.disRate xl)) (.num P.hdnScale) = .num (Step.flowStr P xl) := by
  constructor
  · unfold scaleF Updst.epsdotScaleInv
    simp only [fl_mul, fl_lt, fl_inv, Fl.num.injEq, ha, he, if_false, fminF]
    by_cases h : vecNorm P.dSm < epsdotSclNzeff * P.adotsRef
    · rw [if_pos h, if_pos h]
    · rw [if_neg h, if_neg h]
  · unfold flowStrF Step.flowStr
    simp only [fl_lt, fl_inv, fl_mul]
    by_cases h : idpTinySqrt < vecdDeff P.dSm
    · rw [if_pos h, if_pos h, mul_one_div]
    · rw [if_neg h, if_neg h]

/-- C118 a NaN as stress or as strength is answered with no slip, as if the stress were zero. -/
theorem C118_swallowed (k : Voce) (g : ℝ) (hg : g ≠ 0) (x : Fl) :
    voceGdotF k (.num g) .nan = .ok ⟨.num 0, .num 0, .num 0⟩ ∧ voceGdotF k .nan x = .ok ⟨.num 0, .num 0, .num 0⟩ := by
  constructor
  · unfold voceGdotF
    rw [if_neg (by simpa using hg)]
    simp
  · unfold voceGdotF
    rw [if_neg (by simp)]
    simp

/-- C118 whatever the stress and the strength, what the slip law gives are numbers. -/
theorem C118_no_nan (k : Voce) (g tau : Fl) (hg : g ≠ .num 0) :
    ∃ r, voceGdotF k g tau = .ok r ∧ IsNum r.gdot ∧ IsNum r.dtau ∧ IsNum r.dg := by
  have z : IsNum (.num 0) := ⟨0, rfl⟩
  cases g with
  | nan => exact ⟨_, (C118_swallowed k 1 one_ne_zero tau).2, z, z, z⟩
  | num g =>
    have hg' : g ≠ 0 := fun h => hg (by rw [h])
    cases tau with
    | nan => exact ⟨_, (C118_swallowed k g hg' .nan).1, z, z, z⟩
    | num t => exact ⟨_, C118_numbers k hg' t, ⟨_, rfl⟩, ⟨_, rfl⟩, ⟨_, rfl⟩⟩

theorem sumAbsF_zero (l : List Fl) (h : ∀ a ∈ l, a = .num 0) : sumAbsF l = .num 0 := by
  unfold sumAbsF
  induction l with
  | nil => rfl
  | cons a l ih =>
    rw [List.foldl_cons, h a (by simp), fl_abs, abs_zero, fl_add, add_zero]
    exact ih fun b hb => h b (by simp [hb])

/-- C118 a crystal with a NaN as strength: with assert the program stops; without it no system slips, whatever the stresses,
    and the effective rate of slip is zero. -/
theorem C118_refuted_strength (k : Voce) {n : ℕ} (tau : Fin n → Fl) :
    (∃ w, voceGetValsF true .nan = .undef w) ∧
    ∃ v, voceGetValsF false .nan = .ok v ∧ ∃ r : Fin n → GdF, (∀ i, voceGdotF k v (tau i) = .ok (r i)) ∧
      (∀ i, (r i).gdot = .num 0 ∧ (r i).dtau = .num 0) ∧ sumAbsF (List.ofFn fun i => (r i).gdot) = .num 0 := by
  refine ⟨⟨_, by unfold voceGetValsF; rw [if_pos (by simp)]⟩, .nan, by unfold voceGetValsF; rw [if_neg (by simp)],
    fun _ => ⟨.num 0, .num 0, .num 0⟩, fun i => (C118_swallowed k 1 one_ne_zero (tau i)).2, fun i => ⟨rfl, rfl⟩, ?_⟩
  refine sumAbsF_zero _ fun a ha => ?_
  obtain ⟨i, rfl⟩ := List.mem_ofFn.1 ha
  rfl

/-- C118 it is false that the law without slip means a small stress: any stress above the threshold gives slip with a number as
    strength, and none with a NaN. -/
theorem C118_refuted_inactive (k : Voce) (hw : 0 < k.gamW) {g tau : ℝ} (hg : 0 < g) (ht : 0 < tau) (h : k.tMin < tau / g) :
    (∃ r, voceGdotF k (.num g) (.num tau) = .ok r ∧ r.gdot ≠ .num 0) ∧
    ∃ r, voceGdotF k .nan (.num tau) = .ok r ∧ r.gdot = .num 0 := by
  refine ⟨⟨_, C118_numbers k hg.ne' tau, ?_⟩, _, (C118_swallowed k 1 one_ne_zero (.num tau)).2, rfl⟩
  have hp : 0 < tau * (1 / g) := by positivity
  simp only [ne_eq, Fl.num.injEq]
  unfold Voce.evalGdot
  simp only
  rw [if_pos (by rw [abs_of_pos hp, mul_one_div]; exact h)]
  split_ifs
  · have : 0 < gamRatioOvffx * k.gamW := mul_pos (by unfold gamRatioOvffx; positivity) hw
    simp only [copysign, if_neg (not_lt.2 ht.le)]
    exact (abs_pos.2 this.ne').ne'
  · have := Real.exp_pos (k.xn * Real.log |tau * (1 / g)|)
    exact (mul_pos (mul_pos hw this) hp).ne'

/-- C118 a NaN as norm of the rate gives a million times the step as scale, and a NaN as effective rate the strength as flow strength. -/
theorem C118_rate (a : Fl) (dt : ℝ) (dis hdn : Fl) :
    scaleF .nan a (.num dt) = .ok (.num (10 ^ 6 * dt)) ∧ flowStrF .nan dis hdn = hdn := by
  constructor
  · unfold scaleF
    rw [if_neg (by simp), if_neg (by simp)]
    rfl
  · unfold flowStrF
    rw [if_neg (by simp)]

/-- the hypotheses can be met -/
example : ∃ (k : Voce) (g tau : ℝ), 0 < k.gamW ∧ 0 < g ∧ 0 < tau ∧ k.tMin < tau / g :=
  ⟨⟨false, 1, 1, 1, 1, 1, 1, 1, 1, 1, 1⟩, 1, 1, one_pos, one_pos, one_pos, by
    simp only [Voce.tMin, Real.rpow_one, div_one]
    unfold gamRatioMin
    norm_num⟩

end Ecm.Props
