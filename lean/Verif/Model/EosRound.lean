/- The equation of state and the energy balance in floating-point arithmetic
   (src/ecmech/ECMech_eosSimple.h:42-43, 77-118, 147-156, 170-191, src/ecmech/ECMech_util.h:396-407,
   src/ecmech/ECMech_evptn.h:1054-1055, 1061-1078, 1217, 1238-1242).

   Same arithmetic and simplifications as Verif/Model/Rounding.lean.  The changes of sign and the maximum
   are exact. -/
import Verif.Model.Rounding
import Verif.Model.Eos

namespace Ecm.Flt
variable (F : Flt)

/-- ECMech_eosSimple.h:42 -/
noncomputable def dtde0 (s : Eos) : ℝ := F.fl (1 / s.cvav)
/-- ECMech_eosSimple.h:43 -/
noncomputable def tK0 (s : Eos) : ℝ := F.fl (-s.ec0 * F.dtde0 s)

/-- ECMech_eosSimple.h:147-156 evalT, and the second result of evalPT (77-91) -/
noncomputable def evalT (s : Eos) (e : ℝ) : ℝ :=
  if s.isothermal then F.tK0 s else F.fl (F.tK0 s + F.fl (e * F.dtde0 s))

/-- ECMech_eosSimple.h:77-91 evalPT, 95-118 evalPTDiff: the pressure -/
noncomputable def evalP (s : Eos) (v e : ℝ) : ℝ :=
  let mu := F.fl (F.fl (1 / v) - 1)
  if s.isothermal then F.fl (s.bulkMod * mu) else F.fl (F.fl (s.bulkMod * mu) + F.fl (s.gamma * e))

/-- ECMech_eosSimple.h:180: the energy before the deviatoric part is added -/
noncomputable def eVol (volInc eOld pOld : ℝ) : ℝ := F.fl (eOld - F.fl (volInc * pOld))

/-- ECMech_eosSimple.h:102, 106-117, 185-186: the bulk modulus returned by updateSimple, with its floor -/
noncomputable def bulkNew (s : Eos) (vNew pOld : ℝ) : ℝ :=
  let dpde := if s.isothermal then 0 else s.gamma
  max (F.fl (F.fl 1e-5 * s.bulkMod))
    (F.fl (F.fl (s.bulkMod * F.fl (1 / vNew)) + F.fl (F.fl (dpde * pOld) * vNew)))

/-- ECMech_util.h:396-407 vecsInnerSvecDev -/
noncomputable def innerSvecDev (s d : Vec 7) : ℝ :=
  F.fl (F.fl (F.fl (F.fl (s 0 * d 0) + F.fl (s 1 * d 1)) + F.fl (s 2 * d 2))
    + F.fl (2 * F.fl (F.fl (F.fl (s 3 * d 3) + F.fl (s 4 * d 4)) + F.fl (s 5 * d 5))))

/-- ECMech_evptn.h:1054 -/
noncomputable def halfVMidDt (v0 v1 dt : ℝ) : ℝ := F.fl (F.fl (1 / 4 * F.fl (v0 + v1)) * dt)

/-- ECMech_evptn.h:1055, 1217: the work of the deviatoric stress, half of it with the stress `s` at the
    beginning and half with the stress `s'` at the end of the step -/
noncomputable def eDevTot (v0 v1 dt : ℝ) (s s' d : Vec 7) : ℝ :=
  F.fl (F.fl (F.halfVMidDt v0 v1 dt * F.innerSvecDev s d) + F.fl (F.halfVMidDt v0 v1 dt * F.innerSvecDev s' d))

/-- ECMech_evptn.h:1061-1062, 1072-1078, 1238-1242: the energy handed back -/
noncomputable def energyStep (vr : Vec 4) (dt : ℝ) (d s s' : Vec 7) (eOld : ℝ) : ℝ :=
  F.fl (F.eVol (vr 3) eOld (s 6) + F.eDevTot (vr 0) (vr 1) dt s s' d)

end Ecm.Flt
