/- The slip laws with the range of the numbers of double precision
   (src/ecmech/ECMech_kinetics_VocePL.h:204-279, 302-345, src/ecmech/ECMech_kinetics_KMBalD.h:247-604, 631-675).

   The other model files evaluate these functions over the reals.  Here every operation is followed by a test:
   a result beyond the largest number (overflow), a division by a number below the smallest one (it may have
   been flushed to zero), and a logarithm or power of a number that is not positive have no value (`none`:
   infinity or NaN in the code).

   Simplification: the values themselves are not rounded.  The limits 1e-300 and 1e300 used in the theorems are
   eight decades inside those of double precision, against relative rounding errors of 1e-16 per operation.
   Results that underflow count as usable; only divisors are tested against the lower limit. -/
import Verif.Model.Voce
import Verif.Model.KMBalD

namespace Ecm
open Classical

/-- largest usable result and smallest usable divisor -/
structure Lim where
  lo : ℝ
  hi : ℝ

/-- 1e-300 and 1e300; double precision has 2.2e-308 and 1.8e308 (std::numeric_limits) -/
noncomputable def dblLim : Lim := ⟨1 / 10 ^ 300, 10 ^ 300⟩

namespace Lim
variable (L : Lim)

/-- a result, unless it overflows -/
noncomputable def chk (x : ℝ) : Option ℝ := if |x| ≤ L.hi then some x else none
/-- a product -/
noncomputable def mul (a b : ℝ) : Option ℝ := L.chk (a * b)
/-- a sum -/
noncomputable def add (a b : ℝ) : Option ℝ := L.chk (a + b)
/-- a difference -/
noncomputable def sub (a b : ℝ) : Option ℝ := L.chk (a - b)
/-- a quotient -/
noncomputable def div (a b : ℝ) : Option ℝ := if L.lo ≤ |b| then L.chk (a / b) else none
/-- the exponential function -/
noncomputable def exp (a : ℝ) : Option ℝ := L.chk (Real.exp a)
/-- the logarithm -/
noncomputable def log (a : ℝ) : Option ℝ := if L.lo ≤ a then L.chk (Real.log a) else none
/-- `pow` of a positive number -/
noncomputable def pow (a b : ℝ) : Option ℝ := if L.lo ≤ a then L.chk (a ^ b) else none
/-- the square root -/
noncomputable def sqrt (a : ℝ) : Option ℝ := if 0 ≤ a then L.chk (Real.sqrt a) else none

end Lim

/-- ECMech_kinetics_VocePL.h:204-279 evalGdot -/
noncomputable def Voce.evalGdotR (L : Lim) (k : Voce) (gIn tau : ℝ) : Option Gd := do
  let gI ← L.div 1 gIn
  let tFrac ← L.mul tau gI
  let at' := |tFrac|
  if k.tMin < at' then
    if k.tMax < at' then
      let g ← L.mul gamRatioOvffx k.gamW
      return { gdot := copysign g tau, dtau := 0, dg := 0 }
    else
      let abslog ← L.log at'
      let blog ← L.mul k.xn abslog
      let e ← L.exp blog
      let temp ← L.mul k.gamW e
      let gdot ← L.mul temp tFrac
      let t1 ← L.mul temp k.xnn
      let dtau ← L.mul t1 gI
      let dg ← L.mul (-dtau) tFrac
      return { gdot := gdot, dtau := dtau, dg := dg }
  else return { gdot := 0, dtau := 0, dg := 0 }

/-- ECMech_kinetics_VocePL.h:309-312: the saturation strength, from the effective shear rate -/
noncomputable def Voce.svSatR (L : Lim) (k : Voce) (shr : ℝ) : Option ℝ :=
  if idpTinySqrt < shr then do
    let r ← L.div shr k.gamss0
    let p ← L.pow r k.xms
    L.mul k.taus0 p
  else some k.taus0

/-- ECMech_kinetics_VocePL.h:325-345 getSdot1, linear law -/
noncomputable def Voce.getSdot1R (L : Lim) (k : Voce) (evol : ℝ × ℝ) (h : ℝ) : Option (ℝ × ℝ) := do
  let temp2 ← if evol.2 ≤ k.tausi then some 0 else do
    let d ← L.sub evol.2 k.tausi
    L.div 1 d
  let d ← L.sub evol.2 h
  let t ← L.mul d temp2
  let temp1 ← L.mul k.h0 t
  let sdot ← L.mul temp1 evol.1
  let a ← L.mul (-k.h0) temp2
  let ds ← L.mul a evol.1
  return (sdot, ds)

namespace KMBalD
variable {nV : ℕ} (L : Lim) (k : KMBalD nV)

/-- ECMech_kinetics_KMBalD.h:256-260: gam_w and gam_r -/
noncomputable def gamsR (h : ℝ) : Option (ℝ × ℝ × ℝ) := do
  let s ← L.sqrt h
  let gw ← L.div k.gamWo s
  let a ← L.mul k.gamRo s
  let gr ← L.mul a s
  return (s, gw, gr)

/-- ECMech_kinetics_KMBalD.h:312-333: p_func and the factor of the derivative -/
noncomputable def pFuncR (mts tFrac : ℝ) : Option (ℝ × ℝ) :=
  if k.pOne then some (tFrac, mts)
  else if |tFrac| < idpTinySqrt then do
    let m ← L.mul mts (10 ^ 10)
    return (0, m)
  else do
    let p ← L.pow |tFrac| k.p
    let m1 ← L.mul mts k.p
    let m2 ← L.mul m1 (copysign p tFrac)
    let m3 ← L.div m2 tFrac
    return (copysign p tFrac, m3)

/-- ECMech_kinetics_KMBalD.h:307-356 get_mts_dG -/
noncomputable def mtsDGR (cE denomI tFrac : ℝ) : Option (ℝ × ℝ) := do
  let mts ← L.mul cE denomI
  let pm ← k.pFuncR L mts tFrac
  let qArg ← L.sub 1 pm.1
  if qArg < idpTinySqrt then
    let e ← L.mul (-cE) 0
    return (e, 0)
  else if k.qOne then
    let e ← L.mul (-cE) qArg
    return (e, pm.2)
  else
    let temp ← L.pow |qArg| k.q
    let d1 ← L.mul pm.2 k.q
    let d2 ← L.mul d1 temp
    let d3 ← L.div d2 |qArg|
    let e ← L.mul (-cE) (copysign temp qArg)
    return (e, d3)

/-- ECMech_kinetics_KMBalD.h:446-461; the inner `none` is the early return at 450 -/
noncomputable def dragR (gamR expArg : ℝ) : Option (Option (ℝ × ℝ)) :=
  if expArg < gamRatioMin then some none
  else if expArg < idpEpsSqrt then do
    let g ← L.mul gamR expArg
    let t ← L.sub 1 expArg
    let d ← L.mul gamR t
    let d' ← L.div d k.wrD
    return some (g, d')
  else do
    let temp ← L.exp (-expArg)
    let t ← L.sub 1 temp
    let g ← L.mul gamR t
    let d ← L.mul gamR temp
    let d' ← L.div d k.wrD
    return some (g, d')

/-- ECMech_kinetics_KMBalD.h:501-552; the inner `none` stands for the early returns at 511 and 549.
    dgdot_wg is computed here in both cases, in the code only if !withGAthermal (525, 543). -/
noncomputable def thermalR (gamW cE gI gAth tau : ℝ) : Option (Option (ℝ × ℝ × ℝ)) := do
  let d ← L.sub |tau| gAth
  let tFrac ← L.mul d gI
  let m ← k.mtsDGR L cE gI tFrac
  if m.1 < lnGamRatioMin then return none
  else
    let e ← L.exp m.1
    let gw ← L.mul gamW e
    let dgw ← L.mul m.2 gw
    let dgwg ← L.mul dgw tFrac
    let dm ← L.sub (-|tau|) gAth
    let tFracM ← L.mul dm gI
    let mm ← k.mtsDGR L cE gI tFracM
    if lnGamRatioMin < mm.1 then
      let em ← L.exp mm.1
      let gwm ← L.mul gamW em
      let gw' ← L.sub gw gwm
      let contrib ← L.mul mm.2 gwm
      let dgw' ← L.sub dgw contrib
      let ct ← L.mul contrib tFracM
      let dgwg' ← L.sub dgwg ct
      let r ← L.div gw' gamW
      if |r| < gamRatioMin then return none
      else return some (gw', dgw', dgwg')
    else return some (gw, dgw, dgwg)

/-- ECMech_kinetics_KMBalD.h:555-571: the power-law part -/
noncomputable def plawR (gamW xn xnn tMin gI at0 : ℝ) (w : ℝ × ℝ × ℝ) : Option (ℝ × ℝ × ℝ) :=
  if tMin < at0 then do
    let abslog ← L.log at0
    let blog ← L.mul xn abslog
    let a ← L.mul gamW 10
    let e ← L.exp blog
    let temp ← L.mul a e
    let pl ← L.mul temp at0
    let gw ← L.add w.1 pl
    let c ← L.mul temp xnn
    let contrib ← L.mul c gI
    let dgw ← L.add w.2.1 contrib
    let ca ← L.mul contrib at0
    let dgwg ← L.add w.2.2 ca
    return (gw, dgw, dgwg)
  else some w

/-- ECMech_kinetics_KMBalD.h:575-603: both kinds of kinetics in series -/
noncomputable def seriesR (tau gdotR dgdotR : ℝ) (w : ℝ × ℝ × ℝ) : Option Gd := do
  let iw ← L.div 1 w.1
  let ir ← L.div 1 gdotR
  let s ← L.add iw ir
  let gdot ← L.div 1 s
  let r2 ← L.mul gdotR gdotR
  let gdrdiv2 ← L.div 1 r2
  let w2 ← L.mul w.1 w.1
  let gdwdiv2 ← L.div 1 w2
  let gg ← L.mul gdot gdot
  let a ← L.mul w.2.1 gdwdiv2
  let b ← L.mul dgdotR gdrdiv2
  let ab ← L.add a b
  let dtau ← L.mul gg ab
  let gs ← L.mul gdot (copysign gdot tau)
  let temp1 ← L.mul gs gdwdiv2
  let temp2 ← L.mul gs gdrdiv2
  if k.withGA then
    let d1 ← L.mul (-temp1) w.2.1
    let d2 ← L.mul (-temp2) dgdotR
    let dg ← L.add d2 d1
    return { gdot := copysign gdot tau, dtau := dtau, dg := dg }
  else
    let dg ← L.mul (-temp1) w.2.2
    return { gdot := copysign gdot tau, dtau := dtau, dg := dg }

/-- ECMech_kinetics_KMBalD.h:391-604 evalGdot for the values already selected for one slip system -/
noncomputable def evalGdotSelR (gamW gamR g ct xn xnn tMin tMax tau : ℝ) : Option Gd := do
  let gAth := if k.withGA then g else k.tauA
  if k.withGA = false ∧ tau = 0 then return { gdot := 0, dtau := 0, dg := 0 }
  else
    let gI ← L.div 1 (if k.withGA then k.tauA else g)
    let d ← L.sub |tau| gAth
    let at0 ← L.mul (max 0 d) gI
    let expArg ← L.div d k.wrD
    match ← k.dragR L gamR expArg with
    | none => return { gdot := 0, dtau := 0, dg := 0 }
    | some (gdotR, dgdotR) =>
      if tMax < at0 then
        return { gdot := copysign gdotR tau, dtau := dgdotR
                 dg := if k.withGA then -copysign dgdotR tau else 0 }
      else
        let cE ← L.mul ct k.muRef
        match ← k.thermalR L gamW cE gI gAth tau with
        | none => return { gdot := 0, dtau := 0, dg := 0 }
        | some w0 =>
          let w ← plawR L gamW xn xnn tMin gI at0 w0
          k.seriesR L tau gdotR dgdotR w

/-- ECMech_kinetics_KMBalD.h:638-641: k2, from the effective shear rate -/
noncomputable def k2R (shr : ℝ) : Option ℝ :=
  if idpTinySqrt < shr then do
    let r ← L.div k.gammaO shr
    let p ← L.pow r k.ninv
    L.mul k.k2o p
  else some k.k2o

/-- ECMech_kinetics_KMBalD.h:650-675 getSdot1 -/
noncomputable def getSdot1R (evol : ℝ × ℝ) (h : ℝ) : Option (ℝ × ℝ) := do
  let x ← L.mul (-(1 / 2)) h
  let a ← L.exp x
  let b ← L.mul k.k1 a
  let temp1 ← L.sub b evol.2
  let sdot ← L.mul temp1 evol.1
  let c ← L.mul (-k.k1) (1 / 2)
  let d ← L.mul c a
  let ds ← L.mul d evol.1
  return (sdot, ds)

/-- ECMech_kinetics_KMBalD.h:364-604 evalGdot -/
noncomputable def evalGdotR [NeZero nV] {n : ℕ} (v : KMVals nV) (i : Fin n) (tau : ℝ) : Option Gd :=
  let j := k.iVal i
  k.evalGdotSelR L v.gamW v.gamR (v.g j) (v.ct j) (k.xn j) (k.xnn j) (k.tMin j) (k.tMax j) tau

end KMBalD
end Ecm
