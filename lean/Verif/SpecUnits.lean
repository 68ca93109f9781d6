/-
  Specification of a change of units: stresses `σ` times as large as before, times `θ` times as large,
  lengths unchanged (the code has none).  Energies are per volume, hence change with stress; strains,
  rotations, temperatures and counters do not change.
-/
import Verif.Model.Response
import Verif.Model.Voce
import Verif.Model.KMBalD

namespace Ecm

/-- elastic constants in a unit of stress in which stresses are `σ` times as large; the coupling to the
    energy is a ratio of stress and energy density and has no unit -/
def Elast.units (σ : ℝ) : Elast → Elast
  | .cubic c11 c12 c44 => .cubic (σ * c11) (σ * c12) (σ * c44)
  | .hexag c11 c12 c13 c33 c44 g => .hexag (σ * c11) (σ * c12) (σ * c13) (σ * c33) (σ * c44) g

/-- equation of state with energies per volume in the unit of stress: bulk modulus, specific heat and
    reference energy change, the Grüneisen coefficient has no unit -/
def Eos.units (σ : ℝ) (s : Eos) : Eos :=
  { s with bulkMod := σ * s.bulkMod, cvav := σ * s.cvav, ec0 := σ * s.ec0 }

/-- slip rates and their derivatives in other units -/
def GdUnits {n : ℕ} (σ θ : ℝ) (gd gd' : Fin n → ℝ → Gd) : Prop :=
  ∀ i τ, (gd' i (σ * τ)).gdot = θ⁻¹ * (gd i τ).gdot ∧ (gd' i (σ * τ)).dtau = θ⁻¹ * (σ⁻¹ * (gd i τ).dtau)

/-- the arguments of an update in other units: times `θ` times as large, hence rates divided by `θ` -/
noncomputable def unitsInputs (θ : ℝ) (inp : Inputs) : Inputs where
  dt := θ * inp.dt
  tol := inp.tol
  d := fun i => θ⁻¹ * inp.d i
  w := fun i => θ⁻¹ * inp.w i
  vr := ![inp.vr 0, inp.vr 1, θ⁻¹ * inp.vr 2, inp.vr 3]

/-- the history in other units: slip rates are rates, the flow strength is a stress, the hardness
    variables have the units `fh` gives them -/
noncomputable def unitsHist {nH n : ℕ} (σ θ : ℝ) (fh : Vec nH → Vec nH) (H : Hist nH n) : Hist nH n where
  shrateEff := θ⁻¹ * H.shrateEff
  shrEff := H.shrEff
  flowStr := σ * H.flowStr
  nFEval := H.nFEval
  e := H.e
  q := H.q
  h := fh H.h
  gdot := fun i => θ⁻¹ * H.gdot i

/-- a matrix with every entry multiplied -/
def matScale {p q : ℕ} (σ : ℝ) (t : Mat p q) : Mat p q := fun i j => σ * t i j

/-- the state of a point in other units: energies per volume, stresses, moduli and the tangent (stress
    per strain) change with the unit of stress -/
noncomputable def unitsMem {nH n : ℕ} (σ θ : ℝ) (fh : Vec nH → Vec nH) (m : Mem nH n) : Mem nH n where
  eInt := σ * m.eInt
  stress := fun i => σ * m.stress i
  hist := (unitsHist σ θ fh (Hist.ofArray m.hist)).toArray
  tkelv := m.tkelv
  sdd := fun i => σ * m.sdd i
  mtan := m.mtan.map (matScale σ)

/-- two kinetics that are the same law written in different units, at a given state: the hardness update
    returns the same state, the reference rates and slip rates agree, and failures are the same -/
structure KinUnits {n nH : ℕ} (σ θ : ℝ) (fh : Vec nH → Vec nH) (K K' : Kin n nH)
    (hO : Vec nH) (dt : ℝ) (gdot : Vec n) : Prop where
  upd : K'.updateH (fh hO) (θ * dt) (fun i => θ⁻¹ * gdot i)
    = (K.updateH hO dt gdot).bind fun r => .ok (fh r.1, r.2)
  vals : ∀ p tK h k, K.updateH hO dt gdot = .ok (h, k) →
    match K.getVals p tK h with
    | .ok (v, s) => ∃ v', K'.getVals (σ * p) tK (fh h) = .ok (v', σ * s) ∧
        K'.fixedRefRate v' = θ⁻¹ * K.fixedRefRate v ∧ GdUnits σ θ (K.evalGdot v) (K'.evalGdot v')
    | .fail msg => K'.getVals (σ * p) tK (fh h) = .fail msg
    | .undef w => K'.getVals (σ * p) tK (fh h) = .undef w

/-- the linear solver does not care about the unit of time: when the first five equations (rates) are
    divided by `θ` and the right-hand sides (which are in those equations) are not, the solution is
    multiplied by `θ`.  Trivial for `θ = 1`; an exact solver has it for every `θ` (C75_lup_exact). -/
def LupUnits (L : LUP) (θ : ℝ) : Prop :=
  ∀ (A : Mat 8 8) (B : Mat 5 8), (∀ j i, 5 ≤ i.val → B j i = 0) →
    L (fun i j => (if i.val < 5 then θ⁻¹ else 1) * A i j) B = (L A B).map (matScale θ)

/-- parameters of the Voce kinetics in other units: strengths and moduli are stresses (the slope `h0` is
    a stress per slip), reference rates are rates, exponents have no unit -/
noncomputable def Voce.units (σ θ : ℝ) (k : Voce) : Voce :=
  { k with
    mu := σ * k.mu
    gamW := θ⁻¹ * k.gamW
    h0 := σ * k.h0
    tausi := σ * k.tausi
    taus0 := σ * k.taus0
    gamss0 := θ⁻¹ * k.gamss0
    hdnInit := σ * k.hdnInit }

/-- parameters of the dislocation density kinetics in other units: the activation constants `c1` are
    temperatures per stress, `go` and `s` strengths (the density has its own unit, which stays),
    `wrD` the drag stress -/
noncomputable def KMBalD.units {nV : ℕ} (σ θ : ℝ) (k : KMBalD nV) : KMBalD nV :=
  { k with
    muRef := σ * k.muRef
    c1 := fun i => σ⁻¹ * k.c1 i
    tauA := σ * k.tauA
    gamWo := θ⁻¹ * k.gamWo
    gamRo := θ⁻¹ * k.gamRo
    wrD := σ * k.wrD
    go := fun i => σ * k.go i
    s := fun i => σ * k.s i
    gammaO := θ⁻¹ * k.gammaO }

end Ecm
