/- Property theorems C20, C21: equation of state (src/ecmech/ECMech_eosSimple.h). -/
import Verif.Model.Eos
import Mathlib.Analysis.Calculus.Deriv.Inv
import Mathlib.Analysis.Calculus.Deriv.Add
import Mathlib.Analysis.Calculus.Deriv.Mul
import Mathlib.Tactic.Positivity
import Mathlib.Tactic.FieldSimp
import Mathlib.Tactic.Linarith
import Mathlib.Tactic.LinearCombination

namespace Ecm.Props
open Ecm

/-! ## C20 -/

/-- C20 reference state: zero pressure and the reference temperature -e_c0 / c_v; for the thermal
    variant the temperature zero is at e = e_c0. -/
theorem C20_reference_state (s : Eos) (_ : s.cvav ≠ 0) :
    s.evalPT 1 0 = (0, -s.ec0 / s.cvav) ∧
    (s.isothermal = false → (s.evalPT 1 s.ec0).2 = 0) := by
  constructor
  · cases h : s.isothermal <;> simp [Eos.evalPT, h, Eos.tK0, Eos.dtde0] <;> ring
  · intro h
    simp [Eos.evalPT, h, Eos.tK0, Eos.dtde0]

/-- C20 pressure strictly decreases with volume. -/
theorem C20_pressure_decreasing (s : Eos) (hK : 0 < s.bulkMod) (e v w : ℝ) (hv : 0 < v)
    (hvw : v < w) : (s.evalPT w e).1 < (s.evalPT v e).1 := by
  have h : 1 / w < 1 / v := one_div_lt_one_div_of_lt hv hvw
  cases hi : s.isothermal <;> simp only [Eos.evalPT, hi] <;> simp <;> simp at h <;> nlinarith

/-- C20 energy update, floored bulk modulus, and the pressure / temperature belong to the new
    volume and energy. -/
theorem C20_update (s : Eos) (vNew volInc eOld pOld : ℝ) :
    (s.updateSimple vNew volInc eOld pOld).eNew = eOld - volInc * pOld ∧
    s.bulkMod / 10 ^ 5 ≤ (s.updateSimple vNew volInc eOld pOld).bulkNew ∧
    ((s.updateSimple vNew volInc eOld pOld).press, (s.updateSimple vNew volInc eOld pOld).tK)
      = s.evalPT vNew (eOld - volInc * pOld) := by
  refine ⟨rfl, ?_, ?_⟩
  · refine le_trans (le_of_eq ?_) (le_max_left _ _)
    norm_num; ring
  · cases h : s.isothermal <;> simp [Eos.updateSimple, Eos.evalPTDiff, Eos.evalPT, Eos.evalT, h]

/-- C20 for a positive bulk modulus the reported value is positive. -/
theorem C20_bulk_positive (s : Eos) (hK : 0 < s.bulkMod) (vNew volInc eOld pOld : ℝ) :
    0 < (s.updateSimple vNew volInc eOld pOld).bulkNew :=
  lt_of_lt_of_le (by positivity) (C20_update s vNew volInc eOld pOld).2.1

/-- C20 the floor is inactive whenever the isentropic modulus is above it. -/
theorem C20_floor_inactive (s : Eos) (vNew volInc eOld pOld : ℝ)
    (h : s.bulkMod / 10 ^ 5 ≤ s.bulkMod / vNew
      + (if s.isothermal then 0 else s.gamma) * pOld * vNew) :
    (s.updateSimple vNew volInc eOld pOld).bulkNew
      = s.bulkMod / vNew + (if s.isothermal then 0 else s.gamma) * pOld * vNew := by
  have e : s.bulkMod / 10 ^ 5 = 1e-5 * s.bulkMod := by norm_num; ring
  rw [e] at h
  simp only [Eos.updateSimple, Eos.evalPTDiff]
  rw [show s.bulkMod * (1 / vNew) = s.bulkMod / vNew by ring]
  exact max_eq_right h

example : ∃ s : Eos, s.cvav ≠ 0 ∧ 0 < s.bulkMod ∧ s.isothermal = false :=
  ⟨⟨false, 16.65, 2, 3e-3, 2, -1⟩, by norm_num, by norm_num, rfl⟩
example : ∃ (s : Eos) (v p : ℝ), s.bulkMod / 10 ^ 5 ≤ s.bulkMod / v
    + (if s.isothermal then 0 else s.gamma) * p * v :=
  ⟨⟨false, 16.65, 2, 3e-3, 2, -1⟩, 1, 1, by norm_num⟩

/-! ## C21 -/

/-- C21 derivatives with respect to energy (thermal variant). -/
theorem C21_energy_derivatives (s : Eos) (hi : s.isothermal = false) (v e : ℝ) :
    HasDerivAt (fun e => (s.evalPT v e).1) (s.evalPTDiff v e).dpde e ∧
    HasDerivAt (fun e => (s.evalPT v e).2) (s.evalPTDiff v e).dtde e := by
  constructor
  · have h : HasDerivAt (fun e => s.bulkMod * (1 / v - 1) + s.gamma * e) (s.gamma * 1) e :=
      ((hasDerivAt_id e).const_mul s.gamma).const_add _
    simpa [Eos.evalPT, Eos.evalPTDiff, hi] using h
  · have h : HasDerivAt (fun e => s.tK0 + e * s.dtde0) (1 * s.dtde0) e :=
      ((hasDerivAt_id e).mul_const s.dtde0).const_add _
    simpa [Eos.evalPT, Eos.evalPTDiff, hi] using h

/-- C21 derivatives with respect to energy (isothermal variant): pressure slope exact, temperature
    slope the documented substitute 1e-8 / c_v while the true one is zero. -/
theorem C21_energy_derivatives_isothermal (s : Eos) (hi : s.isothermal = true) (v e : ℝ) :
    HasDerivAt (fun e => (s.evalPT v e).1) (s.evalPTDiff v e).dpde e ∧
    HasDerivAt (fun e => (s.evalPT v e).2) 0 e ∧
    (s.evalPTDiff v e).dtde = 1 / (10 ^ 8 * s.cvav) := by
  refine ⟨?_, ?_, ?_⟩
  · simpa [Eos.evalPT, Eos.evalPTDiff, hi] using hasDerivAt_const e (s.bulkMod * (v⁻¹ - 1))
  · simpa [Eos.evalPT, hi] using hasDerivAt_const e s.tK0
  · simp [Eos.evalPTDiff, hi, Eos.dtde0]; norm_num; ring

/-- C21 the two evaluation routines agree. -/
theorem C21_routines_agree (s : Eos) (v e : ℝ) :
    s.evalPT v e = ((s.evalPTDiff v e).p, (s.evalPTDiff v e).tK) := by
  cases h : s.isothermal <;> simp [Eos.evalPT, Eos.evalPTDiff, Eos.evalT, h]

/-- C21 the reported dp/dv is the derivative at fixed energy. -/
theorem C21_dpdv (s : Eos) (vNew volInc eOld pOld : ℝ) (hv : 0 < vNew) :
    HasDerivAt (fun v => (s.evalPT v (eOld - volInc * pOld)).1)
      (s.updateSimple vNew volInc eOld pOld).dpdv vNew := by
  have h0 : HasDerivAt (fun v : ℝ => s.bulkMod * (1 / v - 1)) (-(s.bulkMod * (1 / vNew)) / vNew)
      vNew := by
    have := (((hasDerivAt_inv hv.ne').sub_const 1).const_mul s.bulkMod)
    simp only [one_div]
    refine this.congr_deriv ?_
    field_simp
  cases hi : s.isothermal
  · have h1 := h0.add_const (s.gamma * (eOld - volInc * pOld))
    simpa [Eos.evalPT, Eos.updateSimple, Eos.evalPTDiff, hi] using h1
  · simpa [Eos.evalPT, Eos.updateSimple, Eos.evalPTDiff, hi] using h0

/-- C21 the unfloored bulk modulus is `-v dp/dv` along any energy path with `de = -pOld dv`. -/
theorem C21_bulk_isentropic (s : Eos) (v pOld : ℝ) (hv : 0 < v) (en : ℝ → ℝ)
    (he : HasDerivAt en (-pOld) v) :
    ∃ dp, HasDerivAt (fun w => (s.evalPT w (en w)).1) dp v ∧
      -v * dp = (s.evalPTDiff v (en v)).bulkNew + (s.evalPTDiff v (en v)).dpde * pOld * v := by
  have h0 : HasDerivAt (fun v : ℝ => s.bulkMod * (1 / v - 1)) (-(s.bulkMod * (1 / v)) / v) v := by
    have := (((hasDerivAt_inv hv.ne').sub_const 1).const_mul s.bulkMod)
    simp only [one_div]
    refine this.congr_deriv ?_
    field_simp
  cases hi : s.isothermal
  · refine ⟨-(s.bulkMod * (1 / v)) / v + s.gamma * (-pOld), ?_, ?_⟩
    · have h1 := h0.fun_add (he.const_mul s.gamma)
      simpa only [Eos.evalPT, hi, Bool.false_eq_true, if_false] using h1
    · simp only [Eos.evalPTDiff, hi, Bool.false_eq_true, if_false]
      field_simp
      ring
  · refine ⟨-(s.bulkMod * (1 / v)) / v, ?_, ?_⟩
    · simpa only [Eos.evalPT, hi, if_true] using h0
    · simp only [Eos.evalPTDiff, hi, if_true]
      field_simp
      ring

example : ∃ (en : ℝ → ℝ) (pOld v : ℝ), 0 < v ∧ HasDerivAt en (-pOld) v :=
  ⟨fun w => 3 + w * (-2), 2, 1, one_pos, by
    simpa using ((hasDerivAt_id (1:ℝ)).mul_const (-2)).const_add 3⟩

end Ecm.Props
