/-
  Interface of the slip kinetics classes (src/ecmech/ECMech_kinetics.h:11-79).
-/
import Verif.Model.Hardening

namespace Ecm
open Classical

/-- C `copysign(a, t)`; negative zero is not modelled, a zero `t` counts as positive -/
noncomputable def copysign (a t : ℝ) : ℝ := if t < 0 then -|a| else |a|

/-- outputs of `evalGdot` for one slip system: rate, derivative with respect to the resolved shear
    stress, derivative with respect to the strength -/
structure Gd where
  gdot : ℝ
  dtau : ℝ
  dg : ℝ

/-- a kinetics object with `n` slip systems and `nH` hardness variables, as used by the material
    update: `getVals` (values and hardness scale), `getFixedRefRate`, `evalGdots` and `updateH`
    (ECMech_kinetics.h:35-54) -/
structure Kin (n nH : ℕ) where
  Vals : Type
  getVals : ℝ → ℝ → Vec nH → Out (Vals × ℝ)
  fixedRefRate : Vals → ℝ
  evalGdot : Vals → Fin n → ℝ → Gd
  updateH : Vec nH → ℝ → Vec n → Out (Vec nH × ℕ)

end Ecm
