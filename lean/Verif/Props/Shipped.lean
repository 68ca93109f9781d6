/-
  C87: the example program with the input files that come with it.
-/
import Verif.Model.Shipped
import Verif.Props.Runs

namespace Ecm.Props
open Ecm Spec Classical

variable {n nH : ℕ}

/-- the copper parameters of miniapp/props.txt, with stresses in MPa -/
noncomputable def copperMPa : Voce where
  nonlinear := false
  mu := 44000
  xm := 0.02
  gamW := 1
  h0 := 400
  tausi := 17
  taus0 := 122.4
  xmprime := 1
  xms := 0
  gamss0 := 5e9
  hdnInit := 17

/-- the parameters of miniapp/props.txt -/
noncomputable def shippedPars : List ℝ :=
  vocePars 8.92e-6 0.003435984 1e-10 168400 121400 75200 copperMPa 0 (-1.0307952)

theorem reads_props : (shippedFiles "./props.txt").map stdReader.prop = shippedPars.map some := by
  have e : (shippedFiles "./props.txt").map (fun s => (readDouble s.toList).map fun a => (a.1, a.2.1))
      = [some (8920, -9), some (3435984, -9), some (10, -11), some (1684, 2), some (1214, 2), some (752, 2), some (440, 2),
          some (2, -2), some (10, -1), some (4000, -1), some (170, -1), some (1224, -1), some (0, -1), some (50, 8),
          some (170, -1), some (0, -1), some (-10307952, -7)] := by decide +kernel
  have e2 : (shippedFiles "./props.txt").map stdReader.prop
      = ((shippedFiles "./props.txt").map (fun s => (readDouble s.toList).map fun a => (a.1, a.2.1))).map
          fun o => o.map fun p => decimal p.1 p.2 := by
    rw [List.map_map]
    refine List.map_congr_left fun s _ => ?_
    simp only [stdReader, Function.comp_apply, Option.map_map]
    rfl
  rw [e2, e]
  simp only [List.map_cons, List.map_nil, Option.map_some, shippedPars, vocePars, Voce.getParams, copperMPa, decimal,
    List.cons_append, List.nil_append]
  norm_num [zpow_neg]

theorem reads_header : stdReader.header "#random 50000" = some ("#random", ⟨50000, by norm_num⟩) ∧
    stdReader.header "#random 350000" = some ("#random", ⟨350000, by norm_num⟩) := by
  constructor <;> decide +kernel

theorem mpa_steady : Steady 12 copperMPa 200 where
  linear := rfl
  xm := by norm_num [copperMPa]
  gamW := by norm_num [copperMPa]
  h0 := by norm_num [copperMPa]
  gamss0 := by norm_num [copperMPa]
  one := by norm_num
  sat := by
    intro γ _ _
    unfold voceSat
    have e : copperMPa.xms = 0 := rfl
    rw [e, Real.rpow_zero, mul_one, ite_self]
    norm_num [copperMPa]

/-- the option files of the repository with what they ask for; `omp`, `gpu`: what the program was built with -/
inductive ShippedRun (omp gpu : Bool) : String → Strategy → ℕ → Prop
  | cpu : ShippedRun omp gpu "./option_cpu.txt" .cpu 50000
  | openmp : omp = true → ShippedRun omp gpu "./option_openmp.txt" .openmp 350000
  | gpu : gpu = true → ShippedRun omp gpu "./option_gpu.txt" .gpu 350000

theorem shipped_files {omp gpu : Bool} {name : String} {device : Strategy} {N : ℕ} (h : ShippedRun omp gpu name device N)
    {u : ℕ → ℝ} (hu : ∀ i < N, (fun j : Fin 4 => u (4 * i + j)) ≠ 0) :
    Files stdReader u omp gpu shippedFiles name .fccA shippedPars ((List.range N).map (randQuat u)) device := by
  cases h with
  | cpu =>
    refine ⟨⟨"./rand_quats_cpu.txt", "voce", "./props.txt", "CPU", ["", "", ""], by decide +kernel, Or.inl ⟨rfl, rfl⟩,
      Or.inl ⟨rfl, rfl⟩, reads_props, "#random", ⟨50000, by norm_num⟩, ?_, Or.inr ⟨rfl, rfl, hu⟩⟩, ?_⟩
    · exact reads_header.1
    · rw [List.length_map, List.length_range]
      exact ⟨by show (13 + 1 + 12 + 1 + 1) * 50000 < 2 ^ 31; norm_num, by norm_num⟩
  | openmp ho =>
    refine ⟨⟨"./rand_quats_openmp.txt", "voce", "./props.txt", "OpenMP", ["", "", ""], by decide +kernel, Or.inl ⟨rfl, rfl⟩,
      Or.inr (Or.inl ⟨rfl, ho, rfl⟩), reads_props, "#random", ⟨350000, by norm_num⟩, ?_, Or.inr ⟨rfl, rfl, hu⟩⟩, ?_⟩
    · exact reads_header.2
    · rw [List.length_map, List.length_range]
      exact ⟨by show (13 + 1 + 12 + 1 + 1) * 350000 < 2 ^ 31; norm_num, by norm_num⟩
  | gpu hg =>
    refine ⟨⟨"./rand_quats_gpu.txt", "voce", "./props.txt", "GPU", ["", "", ""], by decide +kernel, Or.inl ⟨rfl, rfl⟩,
      Or.inr (Or.inr ⟨rfl, hg, rfl⟩), reads_props, "#random", ⟨350000, by norm_num⟩, ?_, Or.inr ⟨rfl, rfl, hu⟩⟩, ?_⟩
    · exact reads_header.2
    · rw [List.length_map, List.length_range]
      exact ⟨by show (13 + 1 + 12 + 1 + 1) * 350000 < 2 ^ 31; norm_num, by norm_num⟩

/-- **C87, the shipped files run.** With each of the three option files of the repository - OpenMP and GPU if the program
    was built with them - the program reads all its input, goes through its 60 steps and prints 60 lines, unless the
    random numbers contain four zeros in a row that belong to one orientation. -/
theorem C87_runs {omp gpu : Bool} {name : String} {device : Strategy} {N : ℕ} (h : ShippedRun omp gpu name device N)
    {u : ℕ → ℝ} (hu : ∀ i < N, (fun j : Fin 4 => u (4 * i + j)) ≠ 0) {S : Solver 1} (hS : Finds S) {X : Ext}
    (hX : Finds X.solver) (hL : ∀ A B, (X.lup A B).isSome) (g : ℕ → ℕ → ℝ) :
    ∃ out, drvMain stdReader u omp gpu S X g shippedFiles name = .ok out ∧ out.length = 60 := by
  refine C82_program hS hX hL g (shipped_files h hu) ?_ (by norm_num) (by norm_num) mpa_steady rfl
    (by norm_num [copperMPa]) (by norm_num [copperMPa]) (by norm_num [copperMPa]) (by norm_num)
    (by unfold stiff; norm_num [copperMPa])
  intro q hq
  obtain ⟨i, hi, rfl⟩ := List.mem_map.1 hq
  have hi := hu i (List.mem_range.1 hi)
  intro h0
  unfold randQuat at h0
  rcases smul_eq_zero.1 h0 with h1 | h1
  · have hl : len (fun j : Fin 4 => u (4 * i + j)) = 0 := by simpa using h1
    unfold len at hl
    unfold dot at hl
    rw [Real.sqrt_eq_zero (Finset.sum_nonneg fun j _ => mul_self_nonneg _)] at hl
    apply hi
    funext j
    have := (Finset.sum_eq_zero_iff_of_nonneg fun j _ => mul_self_nonneg _).1 hl j (Finset.mem_univ j)
    exact mul_self_eq_zero.1 this
  · exact hi h1

/-- the hypotheses can be met -/
example (g : ℕ → ℕ → ℝ) : ∃ out, drvMain stdReader (fun k => if k % 2 = 0 then 1 else -1 / 2) true false (idealSolver 1)
    ⟨idealSolver 8, fun _ B => some B, 1⟩ g shippedFiles "./option_openmp.txt" = .ok out ∧ out.length = 60 :=
  C87_runs (.openmp rfl) (fun i _ h => by
    have h0 := congrFun h 0
    have : (4 * i + ((0 : Fin 4) : ℕ)) % 2 = 0 := by simp; omega
    simp only [this] at h0
    norm_num at h0) (idealSolver_finds 1) (idealSolver_finds 8) (fun _ _ => rfl) g

/-- **C87, refuted for the job script.** The last line of miniapp/miniapp_script.bash names an option file that is not in
    the repository: the program ends with an error message. -/
theorem C87_refuted_script (u : ℕ → ℝ) (omp gpu : Bool) (S : Solver 1) (X : Ext) (g : ℕ → ℕ → ℝ) :
    drvMain stdReader u omp gpu S X g shippedFiles "./option_cuda.txt"
      = .fail "Option file could not be correctly parsed." [] := by
  have e : shippedFiles "./option_cuda.txt" = [] := by decide +kernel
  unfold drvMain drvPrepare
  rw [e]
  rfl

theorem quats_read {u : ℕ → ℝ} {N : ℕ} (hN : N < 2 ^ 31) (hu : ∀ i < N, (fun j : Fin 4 => u (4 * i + j)) ≠ 0)
    {lines : List String} (hh : stdReader.header (lines.headD "") = some ("#random", ⟨N, by omega⟩)) :
    ∃ a, drvQuats stdReader u lines = .ok a :=
  ⟨_, drvQuats_ok (qs := (List.range N).map (randQuat u)) hh (Or.inr ⟨rfl, rfl, hu⟩) (by
    rwa [List.length_map, List.length_range])⟩

theorem device_refused {R : Reader} {u : ℕ → ℝ} {omp gpu : Bool} {S : Solver 1} {X : Ext} {g : ℕ → ℕ → ℝ}
    {files : String → List String} {name ori word props dev msg : String} {rest : List String} {q : ℤ × List ℝ}
    {pars : List ℝ} (h1 : files name = ori :: word :: props :: dev :: rest) (h2 : drvQuats R u (files ori) = .ok q)
    (h3 : drvProps R (files props) = .ok pars) (h4 : drvDevice omp gpu dev = .fail msg) :
    drvMain R u omp gpu S X g files name = .fail msg [] := by
  unfold drvMain drvPrepare
  rw [h1]
  simp only [drvOptions, Out.bind, h2, h3, h4]

/-- **C87, not built in.** Without OpenMP or a GPU the other two option files are refused. -/
theorem C87_refused (u : ℕ → ℝ) (omp gpu : Bool) (S : Solver 1) (X : Ext) (g : ℕ → ℕ → ℝ)
    (hu : ∀ i < 350000, (fun j : Fin 4 => u (4 * i + j)) ≠ 0) :
    (omp = false → drvMain stdReader u omp gpu S X g shippedFiles "./option_openmp.txt"
      = .fail "Accelerator is not supported or RAJA was not built with" []) ∧
    (gpu = false → drvMain stdReader u omp gpu S X g shippedFiles "./option_gpu.txt"
      = .fail "Accelerator is not supported or RAJA was not built with" []) := by
  have hp := (drvProps_iff stdReader (shippedFiles "./props.txt") shippedPars).2 reads_props
  constructor
  · intro ho
    obtain ⟨a, ha⟩ := quats_read (lines := shippedFiles "./rand_quats_openmp.txt") (by norm_num) hu reads_header.2
    have e : shippedFiles "./option_openmp.txt"
        = ["./rand_quats_openmp.txt", "voce", "./props.txt", "OpenMP", "", "", ""] := by decide +kernel
    exact device_refused e ha hp (by simp [drvDevice, ho])
  · intro hg
    obtain ⟨a, ha⟩ := quats_read (lines := shippedFiles "./rand_quats_gpu.txt") (by norm_num) hu reads_header.2
    have e : shippedFiles "./option_gpu.txt"
        = ["./rand_quats_gpu.txt", "voce", "./props.txt", "GPU", "", "", ""] := by decide +kernel
    exact device_refused e ha hp (by simp [drvDevice, hg])

/-! ### Units of the heat capacity -/

/-- **C87, heat.** For a crystal with power-law slip the specific heat (with the cold energy that
    belongs to the same initial temperature) matters for the temperature only: after division of the specific heat by `c`
    every update gives the same stress, history, energy and moduli, and a temperature rise that is `c` times as
    large. -/
theorem C87_heat {M : Material n 1} {k : Voce} {S : Solver 1} (hk : M.kin = k.kin S n) (hi : M.eos.isothermal = false)
    {c : ℝ} (hc : c ≠ 0) (X : Ext) (inp : Inputs) (m m' : Mem 1 n)
    (h : getResponseSngl X M inp m = .ok m') :
    getResponseSngl X { M with eos := { M.eos with cvav := M.eos.cvav / c, ec0 := M.eos.ec0 / c } } inp m
      = .ok { m' with tkelv := M.eos.tK0 + c * (m'.tkelv - M.eos.tK0) } := by
  obtain ⟨W⟩ := getResponseSngl_ok h
  obtain ⟨geom, kin, el, eos⟩ := M
  simp only at hk hi
  subst hk
  have hcv : eos.cvav ≠ 0 := W.hcv
  set M1 : Material n 1 := ⟨geom, k.kin S n, el, eos⟩ with hM1
  set M2 : Material n 1 := ⟨geom, k.kin S n, el, { eos with cvav := eos.cvav / c, ec0 := eos.ec0 / c }⟩ with hM2
  have h0 : M2.eos.tK0 = eos.tK0 := by
    show -(eos.ec0 / c) * (1 / (eos.cvav / c)) = -eos.ec0 * (1 / eos.cvav)
    field_simp
  have hT1 : Step.tK M1 inp m = eos.tK0 + m.eInt * (1 / eos.cvav) := by
    unfold Step.tK Eos.evalPT
    simp [M1, hi, Eos.dtde0]
  have hT2 : Step.tK M2 inp m = eos.tK0 + m.eInt * (1 / (eos.cvav / c)) := by
    rw [← h0]
    unfold Step.tK Eos.evalPT
    simp [M2, hi, Eos.dtde0]
  have e1 : (Step.eosUpdate M2 inp m).eNew = (Step.eosUpdate M1 inp m).eNew := rfl
  have e2 : (Step.eosUpdate M2 inp m).press = (Step.eosUpdate M1 inp m).press := rfl
  have e3 : (Step.eosUpdate M2 inp m).bulkNew = (Step.eosUpdate M1 inp m).bulkNew := rfl
  have hs := Step.setup_eq_ok (M := M2) W.hq (div_ne_zero hcv hc) W.hdt W.hv W.hH (v := W.v) (scale := W.scale) W.hV
  have hP : ({ geom := M2.geom, el := M2.el, gd := M2.kin.evalGdot W.v, adotsRef := M2.kin.fixedRefRate W.v
               hdnScale := W.scale, dt := inp.dt, detV := inp.vr 1, eVref := (Step.eosUpdate M2 inp m).eNew
               pEos := (Step.eosUpdate M2 inp m).press, tK := Step.tK M2 inp m, eN := (Hist.ofArray m.hist).e
               cN := Step.quatN m, dSm := svecToVecd inp.d, wSm := inp.w } : Updst n)
      = { W.P with tK := Step.tK M2 inp m } := by
    rw [W.hP]
    rfl
  rw [hP] at hs
  set P2 : Updst n := { W.P with tK := Step.tK M2 inp m } with hP2
  have f1 : Step.solve X inp P2 = Step.solve X inp W.P := rfl
  have f2 : Step.tangent X (Step.eosUpdate M2 inp m).bulkNew P2 (Step.solve X inp W.P).x m.mtan.isSome = some m'.mtan :=
    W.ht
  have hg : M2.el.getGmod = .ok W.g := W.hg
  unfold getResponseSngl
  rw [hs]
  simp only [Step.run, f1, f2, W.hc, hg]
  rw [if_neg (by simp)]
  have g1 : m'.stress = Step.stressOf P2 (P2.eF (Step.solve X inp W.P).x) (P2.cQuat (Step.solve X inp W.P).x) := W.hst
  have g2 : m'.hist = (Step.newHist X inp (Hist.ofArray m.hist) W.hU P2 (Step.solve X inp W.P) m.mtan.isSome).toArray :=
    W.hhist
  have g3 := W.htk
  have g4 := W.hsdd
  have g5 := W.hE
  rw [← g1, ← g2]
  have g6 : Step.tK M2 inp m = eos.tK0 + c * (m'.tkelv - eos.tK0) := by
    rw [hT2, g3, hT1]
    field_simp
    ring
  rw [g6]
  congr 2
  · exact g5.symm
  · exact g4.symm

/-- the copper crystal of miniapp/props.txt with the specific heat `cv` and the cold energy `ec0` -/
noncomputable def mpaMat (S : Solver 1) (cv ec0 : ℝ) : Material 12 1 where
  geom := slipPQ fccM fccS
  kin := copperMPa.kin S 12
  el := .cubic 168400 121400 75200
  eos := { isothermal := false, rho0 := 8.92e-6, bulkMod := (Elast.cubic 168400 121400 75200).kBulkMod, cvav := cv
           gamma := 0, ec0 := ec0 }

/-- the shipped parameters build this crystal -/
theorem mpa_built (S : Solver 1) : BuiltFrom Case.fccA.type S shippedPars (mpaMat S 0.003435984 (-1.0307952)) 1e-10 := by
  refine ⟨8.92e-6, 0.003435984, 0, -1.0307952, [], [168400, 121400, 75200], copperMPa.getParams, copperMPa.histInfo, rfl, rfl,
    rfl, rfl, C16_fcc.2, rfl, ?_, ?_, rfl, rfl⟩
  · show kinVoce false 12 S copperMPa.getParams = _
    unfold kinVoce
    have : Voce.setParams false copperMPa.getParams = .ok copperMPa := by
      have := Voce.setParams_lin copperMPa.mu copperMPa.xm copperMPa.gamW copperMPa.h0 copperMPa.tausi copperMPa.taus0
        copperMPa.xms copperMPa.gamss0 copperMPa.hdnInit
      unfold Voce.getParams
      exact this
    rw [this]
    rfl
  · show 0 < (Elast.cubic 168400 121400 75200).kBulkMod
    simp [Elast.kBulkMod]
    norm_num

/-- **C87, refuted for the units.** miniapp/props.txt gives stiffness and strength in MPa (a thousand times the numbers of
    pyecmech/example.py), but the specific heat and the cold energy with the numbers that belong to GPa.  An update with
    these numbers gives a temperature rise above 300 K that is a thousand times that of the same update with all numbers in
    MPa; everything else is the same. -/
theorem C87_refuted_units (S : Solver 1) (X : Ext) (inp : Inputs) (m m' : Mem 1 12)
    (h : getResponseSngl X (mpaMat S 3.435984 (-1030.7952)) inp m = .ok m') :
    getResponseSngl X (mpaMat S 0.003435984 (-1.0307952)) inp m
      = .ok { m' with tkelv := 300 + 1000 * (m'.tkelv - 300) } := by
  have e0 : (mpaMat S 3.435984 (-1030.7952)).eos.tK0 = 300 := by
    simp [mpaMat, Eos.tK0, Eos.dtde0]
    norm_num
  have := C87_heat (M := mpaMat S 3.435984 (-1030.7952)) (k := copperMPa) (S := S) rfl rfl (c := 1000) (by norm_num) X inp m
    m' h
  rw [e0] at this
  rw [← this]
  congr 1
  unfold mpaMat
  norm_num

/-- a crystal at rest, with some internal energy -/
noncomputable def warmStart (e : ℝ) : Mem 1 12 where
  eInt := e
  stress := 0
  hist := ({ shrateEff := 0, shrEff := 0, flowStr := 0, nFEval := 0, e := 0, q := ![1, 0, 0, 0], h := fun _ => 17
             gdot := 0 } : Hist 1 12).toArray
  tkelv := 300
  sdd := 0
  mtan := none

/-- the hypotheses can be met, with a temperature that differs -/
example : ∃ m', getResponseSngl ⟨idealSolver 8, fun _ B => some B, 1⟩ (mpaMat (idealSolver 1) 3.435984 (-1030.7952))
    (drvInp 1e-10) (warmStart 1) = .ok m' ∧ m'.tkelv ≠ 300 := by
  have hM : PowerCubic (mpaMat (idealSolver 1) 3.435984 (-1030.7952)) copperMPa (idealSolver 1) 168400 121400 75200 :=
    ⟨⟨fccM, fccS, rfl, C16_fcc.1⟩, rfl, rfl, by norm_num, by norm_num [mpaMat]⟩
  have hκ : (0 : ℝ) ≤ stiff 168400 121400 75200 := by unfold stiff; norm_num
  have hw : 0 < copperMPa.gamW := by norm_num [copperMPa]
  have hr : stiff 168400 121400 75200 * ((1 + 1e-10) * (2 + copperMPa.gamW)) ^ 2 ≤ 10 ^ 60 * 17 * copperMPa.gamW := by
    unfold stiff; norm_num [copperMPa]
  have hload := drvInp_loads mpa_steady.xm hw hκ (by norm_num : (0 : ℝ) < 17) (tol := 1e-10) (by norm_num) hr
  have hs0 : 0 ≤ stepSupply (stiff 168400 121400 75200) copperMPa.gamW (drvInp 1e-10) := by
    have hf0 : 0 ≤ frob (devOfSvecP (drvInp 1e-10).d) := Real.sqrt_nonneg _
    have hv : (drvInp 1e-10).vr 1 = 1 := rfl
    have hdt : (drvInp 1e-10).dt = 1 / 4000 := rfl
    have ht : (drvInp 1e-10).tol = 1e-10 := rfl
    unfold stepSupply
    rw [hv, hdt, ht, Real.one_rpow]
    positivity
  have hs : histOf (warmStart 1) = { shrateEff := 0, shrEff := 0, flowStr := 0, nFEval := 0, e := 0, q := ![1, 0, 0, 0]
                                     h := fun _ => 17, gdot := 0 } := Hist.ofArray_toArray _
  obtain ⟨m', h, -⟩ := C82_next (idealSolver_finds 1) hM mpa_steady (hm := 17) (by norm_num)
    (by norm_num [copperMPa]) (K := 1) (by norm_num) (by norm_num) 0 one_pos 0 ⟨idealSolver 8, fun _ B => some B, 1⟩
    (idealSolver_finds 8) (drvInp 1e-10) (hload.mono hw le_rfl (by positivity) le_rfl) (warmStart 1) (by
      rw [hs]
      refine ⟨fun h => by simpa using congrFun h 0, by simp [lowAt], by norm_num [highAt], ?_, ?_⟩
      · rw [energyNorm_eq]
        unfold wNorm
        simp
      · simp only [Pi.zero_apply, abs_zero, Finset.sum_const_zero]
        positivity) (Or.inl rfl)
  refine ⟨m', h, ?_⟩
  obtain ⟨W⟩ := getResponseSngl_ok h
  rw [W.htk]
  simp [Step.tK, Eos.evalPT, mpaMat, Eos.tK0, Eos.dtde0, warmStart]
  norm_num

end Ecm.Props
