/-
  Model of src/ecmech/ECMech_eosSimple.h.
  Real arithmetic.  `evalPT`, `evalPTDiff` divide by the volume `v` and the derived constants divide
  by `cvav`; theorems that depend on these values assume `0 < v` and, where it matters, `cvav ≠ 0`
  (the C++ code produces infinities otherwise).
-/
import Verif.Model.Const
import Verif.Model.Util

namespace Ecm
open Classical

/-- parameters of `EosModelConst<isothermal>` (ECMech_eosSimple.h:161) with the template argument -/
structure Eos where
  isothermal : Bool
  rho0 : ℝ
  bulkMod : ℝ
  cvav : ℝ
  gamma : ℝ
  ec0 : ℝ

/-- ECMech_eosSimple.h:42 -/
noncomputable def Eos.dtde0 (s : Eos) : ℝ := 1 / s.cvav
/-- ECMech_eosSimple.h:43 -/
noncomputable def Eos.tK0 (s : Eos) : ℝ := -s.ec0 * s.dtde0

/-- ECMech_eosSimple.h:77-91 evalPT, returning (p, tK) -/
noncomputable def Eos.evalPT (s : Eos) (v e : ℝ) : ℝ × ℝ :=
  let mu := 1 / v - 1
  if s.isothermal then (s.bulkMod * mu, s.tK0)
  else (s.bulkMod * mu + s.gamma * e, s.tK0 + e * s.dtde0)

/-- ECMech_eosSimple.h:147-156 evalT -/
noncomputable def Eos.evalT (s : Eos) (e : ℝ) : ℝ :=
  if s.isothermal then s.tK0 else s.tK0 + e * s.dtde0

/-- outputs of evalPTDiff (ECMech_eosSimple.h:95-101) -/
structure PTDiff where
  p : ℝ
  tK : ℝ
  bulkNew : ℝ
  dpde : ℝ
  dtde : ℝ

/-- ECMech_eosSimple.h:95-118 evalPTDiff -/
noncomputable def Eos.evalPTDiff (s : Eos) (v e : ℝ) : PTDiff :=
  let eta := 1 / v
  let mu := eta - 1
  { tK := s.evalT e
    p := if s.isothermal then s.bulkMod * mu else s.bulkMod * mu + s.gamma * e
    dpde := if s.isothermal then 0 else s.gamma
    dtde := if s.isothermal then 1e-8 * s.dtde0 else s.dtde0
    bulkNew := s.bulkMod * eta }

/-- outputs of updateSimple (ECMech_eosSimple.h:170-177) -/
structure EosUpdate where
  press : ℝ
  tK : ℝ
  eNew : ℝ
  bulkNew : ℝ
  dpde : ℝ
  dpdv : ℝ
  dtde : ℝ

/-- ECMech_eosSimple.h:170-191 updateSimple -/
noncomputable def Eos.updateSimple (s : Eos) (vNew volInc eOld pOld : ℝ) : EosUpdate :=
  let eNew := eOld - volInc * pOld
  let d := s.evalPTDiff vNew eNew
  let dpdv := -d.bulkNew / vNew
  let bulkMin := 1e-5 * s.bulkMod
  { press := d.p, tK := d.tK, eNew := eNew
    bulkNew := max bulkMin (d.bulkNew + d.dpde * pOld * vNew)
    dpde := d.dpde, dpdv := dpdv, dtde := d.dtde }

/-- ECMech_eosSimple.h:122-130 getInfo, returning (vMin, vMax, e0, v0) -/
noncomputable def Eos.getInfo (_ : Eos) : ℝ × ℝ × ℝ × ℝ := (0.1, 10, 0, 1)

end Ecm
