/-
  Model of test/test_updst.cxx, TEST(ecmech, driver_a): one crystal, pulled through a hundred steps by calls of
  getResponseECM; then, if DO_FD_CHECK_MTAN is set, one more step with the tangent, and the same step with six
  perturbed rates, from which difference quotients are formed and compared with the tangent.

  The number of steps (`nStep`) is a parameter here.  The arrays that are not initialised (`tkelv`, `sdd`, `mtanSD_an`,
  `tkelv_pert`, `sdd_pert`) are arbitrary inputs.  The output level, the printed headings and the debug output are left
  out.  The numbers before the loop are those of test_px.cxx (Model/TestPx).
-/
import Verif.Model.TestPx

namespace Ecm
open Classical

/-- a local array of the test with its contents (test_updst.cxx:204-206, 217-226, 283) -/
def vecBuf {k : ℕ} (v : Vec k) : Buf where
  len := k
  val := fun a => if h : a < k then v ⟨a, h⟩ else 0

/-- test_updst.cxx:203 -/
noncomputable def updRelRate : ℝ := 1e-6

/-- test_updst.cxx:214 -/
noncomputable def updDt : ℝ := 0.002 / updRelRate

/-- test_updst.cxx:204-206 -/
noncomputable def updRates : Vec 7 := ![-0.5 * updRelRate, -0.5 * updRelRate, 1 * updRelRate, 0, 0, 0, 0]

/-- test_updst.cxx:185-195: the orientation with NON_I_QUAT -/
noncomputable def updQuat : Vec 4 :=
  ![Real.cos (0.5 * 0.2), Real.sin (0.5 * 0.2) * Real.cos 0.7, Real.sin (0.5 * 0.2) * Real.sin 0.7, 0]

/-- test_updst.cxx:177-195: the initial values, with NON_I_QUAT another orientation; `iHistLbQ` is 9 -/
noncomputable def updHistBuf (d : List HistEntry) (turned : Bool) : Buf where
  len := d.length
  val := fun a =>
    if h : turned = true ∧ 9 ≤ a ∧ a < 13 then updQuat ⟨a - 9, by omega⟩
    else (d.getD a ⟨"", 0, false, false⟩).init

/-- test_updst.cxx:238-241, 278-281 and, with perturbed rates, 317-320: the volume ratios of the next step -/
noncomputable def updVol (d : Vec 7) (v0 : ℝ) : Out (Vec 4) :=
  let v1 := v0 * Real.exp (d 6 * updDt)
  let v3 := v1 - v0
  if updDt * 0.5 * (v0 + v1) = 0 then .undef "division by zero"
  else .ok ![v0, v1, v3 / (updDt * 0.5 * (v0 + v1)), v3]

/-- test_updst.cxx:243-245, 284-286, 330-332: the arguments that are only read.  The tolerance is a member of the object, so that the
    one in `BatchIn` is not used.  The spin is zero (line 217). -/
noncomputable def updIn (d : Vec 7) (vr : Vec 4) : BatchIn :=
  ⟨updDt, 0, vecBuf d, constBuf 3 0, vecBuf vr⟩

/-- test_updst.cxx:248-252: the numbers of one line: time, axial deviatoric stress, first hardening variable, pressure
    (`iHistLbH` is 13, `iSvecP` is 6) -/
structure UpdLine where
  time : ℝ
  stress : ℝ
  hard : ℝ
  press : ℝ

/-- test_updst.cxx:230-257: the loop over the steps, from the time `t` on; returns what is printed, the volume ratios and the
    memory -/
noncomputable def updLoop {T : MType} (X : Ext) (m : MM T) : ℕ → ℝ → Vec 4 → BatchMem →
    Out (List UpdLine × Vec 4 × BatchMem)
  | 0, _, vr, b => .ok ([], vr, b)
  | k + 1, t, vr, b =>
    Out.bind (updVol updRates (vr 1)) fun vr' =>
      match m.getResponse X (updIn updRates vr') 1 b with
      | .ok b' => Out.bind (updLoop X m k (t + updDt) vr' b') fun r =>
          .ok (⟨t + updDt, b'.stress.val 2, b'.hist.val 13, b'.stress.val 6⟩ :: r.1, r.2)
      | .fail s _ => .fail s
      | .undef w => .undef w

/-- test_updst.cxx:144-257: the object, the arrays and the loop.  `tk` and `sd` are what the arrays of lines 224-225 hold at
    the beginning. -/
noncomputable def updRun (c : Case) (S : Solver 1) (pars : List ℝ) (X : Ext) (K : ℕ) (turned : Bool) (tk : ℝ) (sd : Vec 2) :
    Out (MM c.type × List UpdLine × Vec 4 × BatchMem) :=
  match (MM.new c.type (Strides.default c.type.numHist)).initFromParams S [] pars [] with
  | (m, .ok ()) =>
    Out.bind m.setComplete fun m => Out.bind m.getHistInfo fun d =>
      Out.bind (updLoop X m K 0 ![1, 1, 0, 0]
        ⟨constBuf 1 0, constBuf 7 0, updHistBuf d turned, constBuf 1 tk, vecBuf sd, none⟩) fun r => .ok (m, r)
  | (_, .fail s) => .fail s
  | (_, .undef w) => .undef w

/-- test_updst.cxx:259-266: what the test expects of the last line with KIN_TYPE 1 -/
def UpdPasses (l : UpdLine) : Prop :=
  |l.stress - 0.006664661118275| < 1e-10 ∧ |l.hard - 88.61845050083| < 1e-8 ∧ |l.press - 0.00332602112947| < 1e-10

/-- the parameters with DO_FD_CHECK_MTAN: as `pxParsVoce`, with the exponent of XM_MUSHY (test_updst.cxx:14-20, 154, 163-165,
    test/setup_kin_VocePL.h:1-2) -/
noncomputable def updParsMushy : List ℝ :=
  [3, 2e-5, 1e-10, 3, 1, 1, 1, 0.1, 1, 200e-5, 100e-5, 400e-5, 0.05, 1e-6, 100e-5, 1.7, -(2e-5) * 300]

/-- test_updst.cxx:296 -/
noncomputable def updPertVal : ℝ := 1e-8 * updRelRate

/-- test_updst.cxx:303-315: the rates of column `j`; the mean of a perturbed normal rate goes to the rate of volume -/
noncomputable def updPert (j : Fin 6) : Vec 7 :=
  if j.val < 3 then
    let d : Vec 7 := fun i => if i = j.castSucc then updRates i + updPertVal else updRates i
    let kk := d 0 + d 1 + d 2
    fun i => if i = 6 then d i + kk else if i.val < 3 then d i + -(1 / 3) * kk else d i
  else fun i => if i = j.castSucc then updRates i + 0.5 * updPertVal else updRates i

/-- test_updst.cxx:302-340: column `j` of the difference quotients, from the memory `b` and the volume `v0` before the step;
    `s` is the stress of the step with the unperturbed rates, `tk` and `sd` what the arrays of lines 325-326 hold -/
noncomputable def updCol {T : MType} (X : Ext) (m : MM T) (v0 : ℝ) (b : BatchMem) (s : Vec 6) (tk : ℝ) (sd : Vec 2)
    (j : Fin 6) : Out (Vec 6) :=
  Out.bind (updVol (updPert j) v0) fun vr =>
    match m.getResponse X (updIn (updPert j) vr) 1 ⟨b.eInt, b.stress, b.hist, constBuf 1 tk, vecBuf sd, none⟩ with
    | .ok b' => .ok fun i => (svecpToSvec (b'.stress.win 0 7) i - s i) / updPertVal / updDt
    | .fail t _ => .fail t
    | .undef w => .undef w

/-- test_updst.cxx:302-341: the columns one after the other -/
noncomputable def updCols (f : Fin 6 → Out (Vec 6)) : Out (Mat 6 6) :=
  Out.bind (f 0) fun c0 => Out.bind (f 1) fun c1 => Out.bind (f 2) fun c2 => Out.bind (f 3) fun c3 =>
    Out.bind (f 4) fun c4 => Out.bind (f 5) fun c5 => .ok fun i j => (![c0, c1, c2, c3, c4, c5] : Fin 6 → Vec 6) j i

/-- test_updst.cxx:268-341: the tangent of one more step, and the difference quotients; `mt` is what the array of line 283
    holds at the beginning -/
noncomputable def updFd {T : MType} (X : Ext) (m : MM T) (vr : Vec 4) (b : BatchMem) (mt : Vec 36) (tk : Fin 6 → ℝ)
    (sd : Fin 6 → Vec 2) : Out (Mat 6 6 × Mat 6 6) :=
  Out.bind (updVol updRates (vr 1)) fun vr' =>
    match m.getResponse X (updIn updRates vr') 1 { b with mtan := some (vecBuf mt) } with
    | .ok b' =>
      match b'.mtan with
      | some t => Out.bind (updCols fun j => updCol X m (vr 1) b (svecpToSvec (b'.stress.win 0 7)) (tk j) (sd j) j) fun fd =>
          .ok (matOfWin (t.win 0 36), fd)
      | none => .undef "no tangent"
    | .fail s _ => .fail s
    | .undef w => .undef w

/-- test_updst.cxx:140-341 with DO_FD_CHECK_MTAN: the hundred steps and the comparison -/
noncomputable def updCheck (S : Solver 1) (X : Ext) (tk : ℝ) (sd : Vec 2) (mt : Vec 36) (tkp : Fin 6 → ℝ)
    (sdp : Fin 6 → Vec 2) : Out (Mat 6 6 × Mat 6 6) :=
  Out.bind (updRun .fccA S updParsMushy X 100 true tk sd) fun r => updFd X r.1 r.2.2.1 r.2.2.2 mt tkp sdp

/-- test_updst.cxx:349-352 -/
def UpdFdPasses (an fd : Mat 6 6) : Prop := ∀ i j, |fd i j - an i j| < 1e-3

end Ecm
