/-
  Model of the kernels of the example driver: miniapp/setup_kernels.cxx, miniapp/retrieve_kernels.cxx,
  miniapp/material_kernels.cxx and the time loop of miniapp/orientation_evolution.cxx.

  The CPU versions are modelled; the OpenMP and GPU versions have the same loop bodies (the GPU ones
  copy with loops instead of std::copy).  Products of ints that form offsets are not wrapped.
-/
import Verif.Model.Response

namespace Ecm
open Classical

/-- freshly allocated memory: `none` is an element that has not been written
    (memoryManager::allocate, orientation_evolution.cxx:358) -/
abbrev Raw := ℕ → Option ℝ

/-- an assignment to an element -/
def Raw.set (s : Raw) (k : ℕ) (v : ℝ) : Raw := fun a => if a = k then some v else s a

/-- `for (int j = 0; j < n; j++) s[pos j] = v j` -/
def Raw.loop (s : Raw) (n : ℕ) (pos : ℕ → ℕ) (v : ℕ → ℝ) : Raw :=
  (List.range n).foldl (fun t j => t.set (pos j) (v j)) s

/-- setup_kernels.cxx:28-61: the body of the loop of init_data_cpu for point `i`, with the indices of
    lines 11-22 (iHistA_shrateEff = 0, iHistA_shrEff = 1, iHistA_nFEval = 3, iHistLbE = 4, iHistLbQ = 9,
    iHistLbH = 13, ECMech_evptn.h:19-28).  `hist` is the vector of initial values. -/
def initPoint (ori hist : ℕ → ℝ) (numHardness indGdot numSlip vdim i : ℕ) (s : Raw) : Raw :=
  let indVols := indGdot + numSlip
  let indIntEng := indVols + 1
  let ind := i * vdim
  let indOri := i * 4
  let s := s.set (ind + 0) (hist 0)
  let s := s.set (ind + 1) (hist 1)
  let s := s.set (ind + 3) (hist 3)
  let s := s.set (ind + indVols) 1
  let s := s.loop 4 (fun j => ind + 9 + j) (fun j => ori (indOri + j))
  let s := s.loop 5 (fun j => ind + 4 + j) (fun j => hist (4 + j))
  let s := s.loop numSlip (fun j => ind + indGdot + j) (fun j => hist (indGdot + j))
  let s := s.loop numHardness (fun _ => ind + 13) (fun j => hist (13 + j))
  s.loop 1 (fun j => ind + indIntEng + j) (fun _ => 0)

/-- setup_kernels.cxx:9-62 init_data_cpu -/
def initData (ori hist : ℕ → ℝ) (nqpts numHardness indGdot numSlip vdim : ℕ) (s : Raw) : Raw :=
  (List.range nqpts).foldl (fun t i => initPoint ori hist numHardness indGdot numSlip vdim i t) s

/-- setup_kernels.cxx:80-83 (and 440-442): the view of the velocity gradients, column-major, points
    outermost -/
def vgradPos (i j : Fin 3) (q : ℕ) : ℕ := i.val + 3 * j.val + 9 * q

/-- setup_kernels.cxx:446-457: the velocity gradient set up for every point -/
noncomputable def driverL : Mat 3 3 := !![-0.5, 0, 0; 0, -0.5, 0; 0, 0, 1]

/-- what the material model gets for one point (setup_kernels.cxx:89-101) -/
structure DrvIn where
  d : Vec 7
  w : Vec 3
  vr : Vec 4
  stress : Vec 7
  eng : ℝ
  temp : ℝ
  mtan : Mat 6 6

/-- setup_kernels.cxx:118-132: deformation rate -/
noncomputable def drvRate (L : Mat 3 3) : Vec 7 :=
  let dMean := -(1 / 3) * (L 0 0 + L 1 1 + L 2 2)
  ![L 0 0 + dMean, L 1 1 + dMean, L 2 2 + dMean, 0.5 * (L 2 1 + L 1 2), 0.5 * (L 2 0 + L 0 2),
    0.5 * (L 1 0 + L 0 1), -3 * dMean]

/-- setup_kernels.cxx:118-120: spin -/
noncomputable def drvSpin (L : Mat 3 3) : Vec 3 :=
  ![0.5 * (L 2 1 - L 1 2), 0.5 * (L 0 2 - L 2 0), 0.5 * (L 1 0 - L 0 1)]

/-- setup_kernels.cxx:134-137: volume ratios; `undef` for a division by zero -/
noncomputable def drvVol (dt rate vol : ℝ) : Out (Vec 4) :=
  let v0 := vol
  let v1 := v0 * Real.exp (rate * dt)
  let v3 := v1 - v0
  if dt * 0.5 * (v0 + v1) = 0 then .undef "division by zero"
  else .ok ![v0, v1, v3 / (dt * 0.5 * (v0 + v1)), v3]

/-- setup_kernels.cxx:139-145: stress in the form of the library -/
noncomputable def drvStress (s : Vec 6) : Vec 7 :=
  let mean := -(1 / 3) * (s 0 + s 1 + s 2)
  ![s 0 + mean, s 1 + mean, s 2 + mean, s 3, s 4, s 5, mean]

/-- setup_kernels.cxx:64-147 setup_data_cpu for one point -/
noncomputable def drvSetup (dt : ℝ) (L : Mat 3 3) (stress : Vec 6) (vol eng : ℝ) : Out DrvIn :=
  (drvVol dt (drvRate L 6) vol).bind fun vr => .ok
    { d := drvRate L, w := drvSpin L, vr := vr, stress := drvStress stress, eng := eng, temp := 300
      mtan := 0 }

/-- retrieve_kernels.cxx:32-39: stress in Voigt notation -/
def drvRetrieve (s : Vec 7) : Vec 6 := ![s 0 + -s 6, s 1 + -s 6, s 2 + -s 6, s 3, s 4, s 5]

/-- what the driver keeps for one point between steps: the state variables (history, relative volume,
    energy) and the stress (orientation_evolution.cxx:50-56) -/
structure DrvState (nH n : ℕ) where
  hist : Vec (numHist nH n)
  vol : ℝ
  eng : ℝ
  stress : Vec 6
  sdd : Vec 2

/-- one step of the driver for one point (orientation_evolution.cxx:437-450): setup_data,
    mat_model_kernel, retrieve_data.  `tol` is the tolerance held by the model. -/
noncomputable def drvStep {nH n : ℕ} (X : Ext) (M : Material n nH) (tol dt : ℝ) (L : Mat 3 3)
    (s : DrvState nH n) : Res (DrvState nH n) :=
  match drvSetup dt L s.stress s.vol s.eng with
  | .undef w => .undef w
  | .fail e => .fail e s
  | .ok a =>
    match getResponseSngl X M { dt := dt, tol := tol, d := a.d, w := a.w, vr := a.vr }
        { eInt := a.eng, stress := a.stress, hist := s.hist, tkelv := a.temp, sdd := s.sdd
          mtan := some a.mtan } with
    | .undef w => .undef w
    | .fail e m => .fail e { s with hist := m.hist, sdd := m.sdd }
    | .ok m =>
      .ok { hist := m.hist, vol := a.vr 1, eng := m.eInt, stress := drvRetrieve m.stress, sdd := m.sdd }

/-- the time loop (orientation_evolution.cxx:436-450) with one velocity gradient and time step per
    entry of the list -/
noncomputable def drvRun {nH n : ℕ} (X : Ext) (M : Material n nH) (tol : ℝ) :
    List (ℝ × Mat 3 3) → DrvState nH n → Res (DrvState nH n)
  | [], s => .ok s
  | (dt, L) :: l, s =>
    match drvStep X M tol dt L s with
    | .ok s' => drvRun X M tol l s'
    | .fail e s' => .fail e s'
    | .undef w => .undef w

end Ecm
