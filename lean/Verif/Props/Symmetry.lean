/- Property theorem C55: crystallographically equivalent lattice orientations
   (src/ecmech/ECMech_evptn.h, ECMech_slipgeom.h). -/
import Verif.Lemmas.Symmetry
import Verif.Props.Objectivity
import Verif.Props.KMBalD

namespace Ecm.Props
open Ecm Spec Matrix

variable {n nH : ℕ}

/-- the lists of slip systems of the cubic lattices -/
inductive CubicList : {n : ℕ} → (Fin n → V3) → (Fin n → V3) → Prop
  | fcc : CubicList fccM fccS
  | bcc12 : CubicList bccM12 bccS12
  | bcc24 : CubicList bccM24 bccS24
  | bcc48 : CubicList bccM48 bccS48

/-- a list of slip rates permuted by `π` with signs `ε` -/
def permRates (π : Equiv.Perm (Fin n)) (ε : Fin n → ℝ) (g : Vec n) : Vec n :=
  fun j => ε (π.symm j) * g (π.symm j)

/-- the memory of a point with its lattice described in turned axes: elastic strain components,
    orientation and slip rates changed accordingly, everything else unchanged -/
noncomputable def turnMem (h : Vec 4) (π : Equiv.Perm (Fin n)) (ε : Fin n → ℝ) (m : Mem nH n) :
    Mem nH n :=
  { m with
    hist := ({ histOf m with
      e := turnE h (histOf m).e
      q := quatProd (histOf m).q (qconj h)
      gdot := permRates π ε (histOf m).gdot } : Hist nH n).toArray }

/-- kinetics that do not tell the systems `i` and `π i` apart, are odd in the stress, and evolve the
    strength in the same way for permuted slip rates of either sign (at temperature `T`) -/
structure KinSym (K : Kin n nH) (T : ℝ) (π : Equiv.Perm (Fin n)) (ε : Fin n → ℝ) : Prop where
  hard : ∀ h dt g, K.updateH h dt (permRates π ε g) = K.updateH h dt g
  same : ∀ p h v sc, K.getVals p T h = .ok (v, sc) → ∀ i τ,
    (K.evalGdot v (π i) τ).gdot = (K.evalGdot v i τ).gdot
  odd : ∀ p h v sc, K.getVals p T h = .ok (v, sc) → ∀ i τ,
    (K.evalGdot v i (-τ)).gdot = -(K.evalGdot v i τ).gdot

/-! ### helpers -/

theorem cubicList_props {m s : Fin n → V3} (hl : CubicList m s) :
    (∀ i, IsSlipSystem (m i) (s i)) ∧
    (∀ i j, i ≠ j → ¬ SameSystem (m i) (s i) (m j) (s j)) ∧
    (∀ σ ε i, ∃ j, SameSystem ((cubicOp σ ε).mulVec (m i)) ((cubicOp σ ε).mulVec (s i)) (m j) (s j)) := by
  cases hl with
  | fcc => exact ⟨fcc_slip, C17_fcc.1, C17_fcc.2.1⟩
  | bcc12 => exact ⟨bcc12_slip, C17_bcc12.1, C17_bcc12.2.1⟩
  | bcc24 => exact ⟨bcc24_slip, C17_bcc24.1, C17_bcc24.2.1⟩
  | bcc48 => exact ⟨bcc48_slip, C17_bcc48.1, C17_bcc48.2.1⟩

theorem quatProd_left_neg (a q : Vec 4) : quatProd (-q) a = -quatProd q a := by
  ext i
  fin_cases i <;> simp [quatProd] <;> ring

theorem dot4_turn {a : Vec 4} (ha : qn a = 1) (p q : Vec 4) :
    vecsyadotb (quatProd p a) (quatProd q a) = vecsyadotb p q := by
  have : vecsyadotb (quatProd p a) (quatProd q a) = qn a * vecsyadotb p q := by
    simp [vecsyadotb, Fin.sum_univ_four, quatProd, qn]; ring
  rw [this, ha, one_mul]

theorem normalize_turn {a : Vec 4} (ha : qn a = 1) (q : Vec 4) :
    vecsVNormalize (quatProd q a) = quatProd (vecsVNormalize q) a := by
  unfold vecsVNormalize
  rw [vecNorm4, vecNorm4, qn_prod, ha, mul_one]
  ext i
  fin_cases i <;> simp [vecsVsa, quatProd] <;> ring

theorem quatProd_turn_eq_zero {a : Vec 4} (ha : qn a = 1) (q : Vec 4) : quatProd q a = 0 ↔ q = 0 := by
  have key : ∀ p : Vec 4, p = 0 ↔ qn p = 0 := by
    intro p
    constructor
    · rintro rfl; simp [qn]
    · intro h
      have h' : p 0 ^ 2 + p 1 ^ 2 + p 2 ^ 2 + p 3 ^ 2 = 0 := h
      ext i
      fin_cases i <;> simp <;>
        nlinarith [sq_nonneg (p 0), sq_nonneg (p 1), sq_nonneg (p 2), sq_nonneg (p 3)]
  rw [key, key q, qn_prod, ha, mul_one]

theorem vecsssumabs_perm (π : Equiv.Perm (Fin n)) {ε : Fin n → ℝ} (hε : ∀ i, ε i = 1 ∨ ε i = -1)
    (g : Vec n) : vecsssumabs (permRates π ε g) = vecsssumabs g := by
  unfold vecsssumabs
  rw [← Equiv.sum_comp π]
  refine Finset.sum_congr rfl fun i _ => ?_
  simp only [permRates, Equiv.symm_apply_apply]
  rcases hε i with h | h <;> rw [h] <;> simp

theorem histOf_turnMem (h : Vec 4) (π : Equiv.Perm (Fin n)) (ε : Fin n → ℝ) (m : Mem nH n) :
    Hist.ofArray (turnMem h π ε m).hist = { histOf m with
      e := turnE h (histOf m).e
      q := quatProd (histOf m).q (qconj h)
      gdot := permRates π ε (histOf m).gdot } :=
  Hist.ofArray_toArray _

theorem setup_turn (M : Material n nH) (inp : Inputs) (m : Mem nH n) {h : Vec 4} (hh : qn h = 1)
    {π : Equiv.Perm (Fin n)} {ε : Fin n → ℝ} (hK : KinSym M.kin (Step.tK M inp m) π ε) :
    Step.setup M inp (turnMem h π ε m)
      = (Step.setup M inp m).bind fun u => .ok (u.1, u.2.turn h) := by
  have htK : Step.tK M inp (turnMem h π ε m) = Step.tK M inp m := rfl
  have hu : Step.eosUpdate M inp (turnMem h π ε m) = Step.eosUpdate M inp m := rfl
  have hc : qn (qconj h) = 1 := by rw [qn_qconj, hh]
  have hq : Step.quatN (turnMem h π ε m) = quatProd (Step.quatN m) (qconj h) := by
    unfold Step.quatN
    rw [histOf_turnMem]
    exact normalize_turn hc _
  unfold Step.setup
  rw [htK, hu, hq, histOf_turnMem]
  simp only [quatProd_turn_eq_zero hc]
  by_cases h1 : (histOf m).q = 0
  · have h1' : (Hist.ofArray m.hist).q = 0 := h1
    simp [h1, h1', Out.bind]
  have h1' : (Hist.ofArray m.hist).q ≠ 0 := h1
  simp only [if_neg h1, if_neg h1']
  by_cases h2 : M.eos.cvav = 0
  · simp [h2, Out.bind]
  simp only [if_neg h2, hK.hard]
  show (M.kin.updateH (histOf m).h inp.dt (histOf m).gdot).bind _ = _
  cases h3 : M.kin.updateH (histOf m).h inp.dt (histOf m).gdot with
  | fail s =>
    rfl
  | undef w =>
    rfl
  | ok r =>
    simp only [Out.bind, Updst.make]
    by_cases h4 : inp.dt = 0
    · simp [h4]
    simp only [if_neg h4]
    by_cases h5 : inp.vr 1 ≤ 0
    · simp [h5]
    simp only [if_neg h5]
    cases M.kin.getVals (Step.eosUpdate M inp m).press (Step.tK M inp m) r.1 with
    | fail s => rfl
    | undef w => rfl
    | ok v => rfl

/-! ## C55 -/

/-- C55 meaning of the turned description, for the operation `H` with quaternion `h`: tensors in
    lattice axes become `H A Hᵀ`, rotation increments `H ξ`, the lattice rotation `R Hᵀ`; so the
    elastic strain tensor in the sample frame is the same. -/
theorem C55_description (h : Vec 4) (hh : dot h h = 1) (q : Vec 4) (e : Vec 5) :
    quatToTensor (quatProd q (qconj h)) = quatToTensor q * (quatToTensor h).transpose ∧
    vecdToSymm (turnE h e) = quatToTensor h * vecdToSymm e * (quatToTensor h).transpose ∧
    quatToTensor (quatProd q (qconj h)) * vecdToSymm (turnE h e)
        * (quatToTensor (quatProd q (qconj h))).transpose
      = quatToTensor q * vecdToSymm e * (quatToTensor q).transpose := by
  rw [dot_self_quat] at hh
  obtain ⟨r1, r2, -⟩ := isRot_of_unit hh
  have e1 : quatToTensor (quatProd q (qconj h)) = quatToTensor q * (quatToTensor h).transpose := by
    rw [quatToTensor_prod, quatToTensor_qconj]
  refine ⟨e1, vecdToSymm_turnE hh e, ?_⟩
  rw [e1, vecdToSymm_turnE hh, Matrix.transpose_mul, Matrix.transpose_transpose]
  set H := quatToTensor h
  set C := quatToTensor q
  calc C * H.transpose * (H * vecdToSymm e * H.transpose) * (H * C.transpose)
      = C * (H.transpose * H) * vecdToSymm e * (H.transpose * H) * C.transpose := by
        simp only [Matrix.mul_assoc]
    _ = _ := by rw [r2, Matrix.mul_one, Matrix.mul_one]

/-- C55 a symmetry rotation of the cube permutes the slip systems of a cubic lattice up to sign. -/
theorem C55_permutation (m s : Fin n → V3) (hl : CubicList m s) (σ : Equiv.Perm (Fin 3))
    (η : Fin 3 → ℤˣ) :
    ∃ (π : Equiv.Perm (Fin n)) (ε : Fin n → ℝ), (∀ i, ε i = 1 ∨ ε i = -1) ∧
      ∀ i, dyad ((cubicOp σ η).mulVec (s i)) ((cubicOp σ η).mulVec (m i))
        = ε i • dyad (s (π i)) (m (π i)) := by
  obtain ⟨-, hd, hc⟩ := cubicList_props hl
  have h1 := C17_ops_orthogonal.1 σ η
  have h2 : (cubicOp σ η).transpose * cubicOp σ η = 1 := mul_eq_one_comm.1 h1
  choose f hf using hc σ η
  obtain ⟨π, ε, -, he, hm⟩ := exists_perm h2 hd hf
  exact ⟨π, ε, he, fun i => by rw [dyad_mulVec]; exact hm i⟩

/-- C55 for one problem: in the turned description the equations are the same equations in turned
    unknowns, so a trial point solves one set exactly when the turned one solves the other, with the
    same accuracy; the stress, the effective shearing rate and the dissipation are the same and the
    slip rates are permuted.  The operation is given by its effect on slip systems, kinetics and
    elasticity (`C55_cubic` and `C55_hexagonal` supply it).  Rotation increments of length between
    zero and 1e-90, which the code rounds, are left out. -/
theorem C55_equations (P : Updst n) (m s : Fin n → V3) (h : Vec 4) (hh : dot h h = 1)
    (S : P.Symmetry m s (quatToTensor h)) (hcn : dot P.cN P.cN = 1) (hv : 0 < P.detV) (x : Vec 8)
    (hx : Updst.xiF x = 0 ∨ 1 / 10 ^ 90 < len (Updst.xiF x)) :
    (P.turn h).resid (turnX h x) = turnX h (P.resid x) ∧
    vecNorm ((P.turn h).resid (turnX h x)) = vecNorm (P.resid x) ∧
    ((P.turn h).resid (turnX h x) = 0 ↔ P.resid x = 0) ∧
    Step.stressOf (P.turn h) ((P.turn h).eF (turnX h x)) ((P.turn h).cQuat (turnX h x))
      = Step.stressOf P (P.eF x) (P.cQuat x) ∧
    (P.turn h).shrateEff (turnX h x) = P.shrateEff x ∧
    (P.turn h).disRate (turnX h x) = P.disRate x ∧
    (∀ i, (P.turn h).gdot (turnX h x) (S.π i) = S.ε i * P.gdot x i) := by
  rw [dot_self_quat] at hh hcn
  have hx' : Updst.xiF x = 0 ∨ idpTinySqrt < vecNorm (Updst.xiF x) := hx
  have hr := P.turn_resid S hh hcn hv x hx'
  have hn : ∀ y : Vec 8, vecNorm (turnX h y) = vecNorm y := by
    intro y
    have key : ∀ z : Vec 8, ∑ i, z i * z i
        = (∑ i, z (iE i) * z (iE i)) + ∑ i, z (iR i) * z (iR i) := by
      intro z
      simp [Fin.sum_univ_succ, iE, iR]
      ring
    have a1 : ∑ i, turnX h y (iE i) * turnX h y (iE i) = ∑ i, y (iE i) * y (iE i) := by
      have hA := vecdToSymm_isDev (fun i => y (iE i))
      have e1 := (C02_inner_products _ _ hA hA).1
      have e2 := (C02_inner_products _ _ (isDev_conj (isRot_of_unit hh).2.1 hA)
        (isDev_conj (isRot_of_unit hh).2.1 hA)).1
      rw [ddot_conj (isRot_of_unit hh).2.1, ← e1, symmToVecd_vecdToSymm] at e2
      have e3 : (fun i => turnX h y (iE i)) = _ := turnX_e h y
      calc ∑ i, turnX h y (iE i) * turnX h y (iE i)
          = ∑ i, (fun i => turnX h y (iE i)) i * (fun i => turnX h y (iE i)) i := rfl
        _ = _ := by rw [e3]; exact e2
    have a2 : ∑ i, turnX h y (iR i) * turnX h y (iR i) = ∑ i, y (iR i) * y (iR i) := by
      have e3 : (fun i => turnX h y (iR i)) = _ := turnX_r h y
      calc ∑ i, turnX h y (iR i) * turnX h y (iR i)
          = ∑ i, (fun i => turnX h y (iR i)) i * (fun i => turnX h y (iR i)) i := rfl
        _ = _ := by rw [e3]; exact dot_mulVec_rot (isRot_of_unit hh).2.1 _
    unfold vecNorm
    rw [key, a1, a2, ← key]
  have hz : ∀ y : Vec 8, y = 0 ↔ vecNorm y = 0 := by
    intro y
    constructor
    · rintro rfl; simp [vecNorm]
    · intro h0
      unfold vecNorm at h0
      rw [Real.sqrt_eq_zero (Finset.sum_nonneg fun i _ => mul_self_nonneg _),
        Finset.sum_eq_zero_iff_of_nonneg fun i _ => mul_self_nonneg _] at h0
      funext i
      exact mul_self_eq_zero.1 (h0 i (Finset.mem_univ i))
  refine ⟨hr, by rw [hr, hn], by rw [hr, hz, hn, ← hz], P.turn_stress S hh hcn hv x hx',
    P.turn_shrateEff S hh hv x, P.turn_disRate S hh hv x, P.turn_gdot S hh hv x⟩

/-- C55 for every cubic lattice, every symmetry rotation of the cube, cubic elasticity, and slip
    systems with the same kinetics, odd in the stress: the symmetry needed in `C55_equations` and
    `C55_update` is there. -/
theorem C55_cubic (P : Updst n) (m s : Fin n → V3) (hl : CubicList m s) (hg : P.geom = slipPQ m s)
    (c11 c12 c44 : ℝ) (hel : P.el = .cubic c11 c12 c44) (σ : Equiv.Perm (Fin 3)) (η : Fin 3 → ℤˣ)
    (hsame : ∀ i j τ, (P.gd i τ).gdot = (P.gd j τ).gdot)
    (hodd : ∀ i τ, (P.gd i (-τ)).gdot = -(P.gd i τ).gdot) :
    Nonempty (P.Symmetry m s (cubicOp σ η)) := by
  obtain ⟨π, ε, he, hm⟩ := C55_permutation m s hl σ η
  have h1 := C17_ops_orthogonal.1 σ η
  have h2 : (cubicOp σ η).transpose * cubicOp σ η = 1 := mul_eq_one_comm.1 h1
  refine ⟨{ geom := hg, slip := (cubicList_props hl).1, π := π, ε := ε, sgn := he,
            map := fun i => by rw [← dyad_mulVec]; exact hm i
            rate := rate_of_odd he (fun i τ => hsame _ _ _) hodd, elast := ?_ }⟩
  intro E _
  rw [hel]
  exact latticeStress_turn h1 h2 (cubic_elastSym c11 c12 c44 σ η) (Or.inl rfl) _ _ _ E

/-- C55 for hexagonal crystals: likewise for every rotation of the hexagonal class, when the systems
    of each of the four families have the same kinetics. -/
theorem C55_hexagonal (P : Updst 24) (r : ℝ) (hr : 0 < r) (m s : Fin 24 → V3)
    (hms : hcpMS r = .ok (m, s)) (hg : P.geom = slipPQ m s)
    (c11 c12 c13 c33 c44 g : ℝ) (hel : P.el = .hexag c11 c12 c13 c33 c44 g) (H : T3) (hH : HexOp H)
    (hsame : ∀ i j : Fin 24, ((i.val < 3 ↔ j.val < 3) ∧ (i.val < 6 ↔ j.val < 6) ∧
      (i.val < 12 ↔ j.val < 12)) → ∀ τ, (P.gd i τ).gdot = (P.gd j τ).gdot)
    (hodd : ∀ i τ, (P.gd i (-τ)).gdot = -(P.gd i τ).gdot) :
    Nonempty (P.Symmetry m s H) := by
  obtain ⟨m', s', hms', hd, hc⟩ := C17_hcp r hr
  obtain ⟨m2, s2, hms2, hsl, -⟩ := C16_hcp r hr
  rw [hms] at hms' hms2
  cases hms'
  cases hms2
  obtain ⟨h1, h2, -⟩ := C17_ops_orthogonal.2 H hH
  choose f hfam hf using hc H hH
  obtain ⟨π, ε, hπ, he, hm⟩ := exists_perm h2 hd hf
  refine ⟨{ geom := hg, slip := hsl, π := π, ε := ε, sgn := he, map := hm
            rate := rate_of_odd he (fun i τ => ?_) hodd, elast := ?_ }⟩
  · rw [hπ]; exact (hsame _ _ (hfam i) τ).symm
  · intro E _
    rw [hel]
    exact latticeStress_turn h1 h2 (hex_elastSym _ _ _ _ _ _ hH) (Or.inr (hex_diag hH)) _ _ _ E

/-- C55 for the whole update: if the solver returns turned unknowns for the turned problem (as it
    must when the solution is unique), the update of the turned state is the turned update: the same
    failure, or the same stress, energy, temperature, moduli, strengths and rates, with the elastic
    strain, orientation and slip rates described in turned axes.  (Updates without tangent.) -/
theorem C55_update (X : Ext) (M : Material n nH) (inp : Inputs) (m : Mem nH n)
    (mm ss : Fin n → V3) (hg : M.geom = slipPQ mm ss) (hsl : ∀ i, IsSlipSystem (mm i) (ss i))
    (h : Vec 4) (hh : dot h h = 1) (π : Equiv.Perm (Fin n)) (ε : Fin n → ℝ)
    (he : ∀ i, ε i = 1 ∨ ε i = -1)
    (hm : ∀ i, dyad ((quatToTensor h).mulVec (ss i)) ((quatToTensor h).mulVec (mm i))
        = ε i • dyad (ss (π i)) (mm (π i)))
    (hK : KinSym M.kin (Step.tK M inp m) π ε)
    (hel : ∀ v p eV (E : T3), E.IsSymm →
      latticeStress M.el v p eV (quatToTensor h * E * (quatToTensor h).transpose)
        = quatToTensor h * latticeStress M.el v p eV E * (quatToTensor h).transpose)
    (hsol : ∀ hU P, Step.setup M inp m = .ok (hU, P) →
      Step.solve X inp (P.turn h) = { Step.solve X inp P with
        x := turnX h (Step.solve X inp P).x
        xLast := turnX h (Step.solve X inp P).xLast } ∧
      (Updst.xiF (Step.solve X inp P).x = 0 ∨ 1 / 10 ^ 90 < len (Updst.xiF (Step.solve X inp P).x)))
    (ht : m.mtan = none) :
    getResponseSngl X M inp (turnMem h π ε m)
      = mapRes (turnMem h π ε) (getResponseSngl X M inp m) := by
  rw [dot_self_quat] at hh
  have hc : qn (qconj h) = 1 := by rw [qn_qconj, hh]
  unfold getResponseSngl
  rw [setup_turn M inp m hh hK]
  cases h1 : Step.setup M inp m with
  | undef w => rfl
  | fail s =>
    show Res.fail s _ = Res.fail s _
    rfl
  | ok u =>
    obtain ⟨hU, P⟩ := u
    obtain ⟨kU, v, sc, a1, a2, a3, a4, a5, a6, a7⟩ := Step.setup_ok h1
    obtain ⟨hs1, hs2⟩ := hsol hU P h1
    have hcn : qn P.cN = 1 := by rw [a7]; exact qn_quatN a1
    have hv : 0 < P.detV := by rw [a7]; exact a4
    obtain ⟨S, rfl, rfl⟩ : ∃ S : P.Symmetry mm ss (quatToTensor h), S.π = π ∧ S.ε = ε :=
      ⟨{ geom := by rw [a7]; exact hg
         slip := hsl, π := π, ε := ε, sgn := he
         map := fun i => by rw [← dyad_mulVec]; exact hm i
         rate := by
           rw [a7]
           exact rate_of_odd he (fun i τ => hK.same _ _ v sc a6 i τ) fun i τ => hK.odd _ _ v sc a6 i τ
         elast := fun E hE => by rw [a7]; exact hel _ _ _ E hE }, rfl, rfl⟩
    simp only [Out.bind, Step.run]
    rw [hs1]
    by_cases h2 : (Step.solve X inp P).converged = false
    · simp only [h2, if_true]; rfl
    simp only [if_neg h2]
    have hm : (turnMem h S.π S.ε m).mtan = none := ht
    have hu : Step.eosUpdate M inp (turnMem h S.π S.ε m) = Step.eosUpdate M inp m := rfl
    rw [hm, ht, hu]
    have e0 : ∀ (Q : Updst n) b x, Step.tangent X b Q x false = some none := fun Q b x => by
      simp [Step.tangent]
    simp only [Option.isSome_none, e0]
    rw [P.turn_stress S hh hcn hv _ hs2]
    have hhist : Step.newHist X inp (Hist.ofArray (turnMem h S.π S.ε m).hist) hU
        (P.turn h) { Step.solve X inp P with
          x := turnX h (Step.solve X inp P).x
          xLast := turnX h (Step.solve X inp P).xLast } false
        = { Step.newHist X inp (Hist.ofArray m.hist) hU P (Step.solve X inp P) false with
            e := turnE h (Step.newHist X inp (Hist.ofArray m.hist) hU P (Step.solve X inp P) false).e
            q := quatProd (Step.newHist X inp (Hist.ofArray m.hist) hU P (Step.solve X inp P) false).q
              (qconj h)
            gdot := permRates S.π S.ε
              (Step.newHist X inp (Hist.ofArray m.hist) hU P (Step.solve X inp P) false).gdot } := by
      rw [histOf_turnMem]
      have hfs : ∀ y, Step.flowStr (P.turn h) (turnX h y) = Step.flowStr P y := by
        intro y
        unfold Step.flowStr
        rw [P.turn_disRate S hh hv]
        rfl
      have hgd : ∀ y, (P.turn h).gdot (turnX h y) = permRates S.π S.ε (P.gdot y) := by
        intro y
        funext j
        have := P.turn_gdot S hh hv y (S.π.symm j)
        rw [Equiv.apply_symm_apply] at this
        exact this
      have hfq : Step.flipQuat ((P.turn h).cQuat (turnX h (Step.solve X inp P).x)) (P.turn h).cN
          = quatProd (Step.flipQuat (P.cQuat (Step.solve X inp P).x) P.cN) (qconj h) := by
        rw [P.turn_cQuat hh _ hs2]
        show Step.flipQuat _ (quatProd P.cN (qconj h)) = _
        unfold Step.flipQuat
        rw [dot4_turn hc]
        split_ifs
        · rw [quatProd_left_neg]
        · rfl
      simp only [Step.newHist, Step.lastX, Bool.false_eq_true, if_false, hfs, hgd, hfq, P.turn_shrateEff S hh hv, P.turn_eF hh]
    rw [hhist]
    cases M.el.getGmod with
    | undef w => rfl
    | fail s =>
      simp only [mapRes, turnMem, histOf, Hist.ofArray_toArray]
      rfl
    | ok g =>
      simp only [mapRes, turnMem, histOf, Hist.ofArray_toArray]
      rfl

/-- C55 the power-law kinetics with Voce hardening are symmetric in this sense for every permutation
    of the systems. -/
theorem C55_voce (k : Voce) (hm : 0 < k.xm) (S : Solver 1) (T : ℝ) (π : Equiv.Perm (Fin n))
    (ε : Fin n → ℝ) (he : ∀ i, ε i = 1 ∨ ε i = -1) : KinSym (k.kin S n) T π ε where
  hard := fun h dt g => by
    show k.updateH S h dt _ = k.updateH S h dt g
    unfold Voce.updateH Voce.getEvolVals
    rw [vecsssumabs_perm π he]
  same := fun p h v sc _ i τ => rfl
  odd := fun p h v sc hv i τ => by
    simp only [Voce.kin] at hv
    split_ifs at hv with h0
    cases hv
    exact (C24_odd k hm _ τ h0).1

/-- C55 the dislocation kinetics are symmetric in this sense for every permutation that leaves the
    system parameters unchanged (in particular for every permutation when all systems share their
    parameters). -/
theorem C55_kmbald {nV : ℕ} [NeZero nV] (k : KMBalD nV) (S : Solver 1) (T : ℝ) (hT : 0 < T)
    (hw : 0 < k.gamWo) (hr : 0 < k.gamRo) (hD : 0 < k.wrD) (hp : 0 < k.p) (hq : 0 < k.q)
    (hc : ∀ j, 0 ≤ k.c1 j * k.muRef) (hgo : k.withGA = true → ∀ j, 0 ≤ k.go j ∧ 0 ≤ k.s j)
    (π : Equiv.Perm (Fin n)) (ε : Fin n → ℝ) (he : ∀ i, ε i = 1 ∨ ε i = -1)
    (hsame : k.perSS = false ∨ ∀ i, k.c1 (k.iVal (π i)) = k.c1 (k.iVal i) ∧
      k.go (k.iVal (π i)) = k.go (k.iVal i) ∧ k.s (k.iVal (π i)) = k.s (k.iVal i)) :
    KinSym (k.kin S n) T π ε where
  hard := fun h dt g => by
    show k.updateH S h dt _ = k.updateH S h dt g
    unfold KMBalD.updateH KMBalD.getEvolVals
    rw [vecsssumabs_perm π he]
  same := fun p h v sc hv i τ => by
    show (k.evalGdot v (π i) τ).gdot = (k.evalGdot v i τ).gdot
    rcases hsame with h1 | h1
    · simp [KMBalD.evalGdot, KMBalD.iVal, h1]
    · simp only [KMBalD.kin, KMBalD.getVals] at hv
      split_ifs at hv
      cases hv
      obtain ⟨b1, b2, b3⟩ := h1 i
      simp only [KMBalD.evalGdot, KMBalD.xn, KMBalD.xnn, KMBalD.xm, KMBalD.tMin, KMBalD.tMax, b1, b2,
        b3]
  odd := fun p h v sc hv i τ => by
    simp only [KMBalD.kin, KMBalD.getVals] at hv
    split_ifs at hv with h1 h2 h3 h4
    cases hv
    have hs : 0 < Real.sqrt (h 0) := Real.sqrt_pos.2 (not_le.1 h1)
    refine C28_odd k _ i ⟨div_pos hw hs, by positivity, hD, ?_, hp, hq, ?_⟩ ?_ τ
    · have := hc (k.iVal i)
      show 0 ≤ k.c1 (k.iVal i) / T * k.muRef
      rw [div_mul_eq_mul_div]; positivity
    · split_ifs with hg
      · exact not_le.1 fun h => h4 ⟨hg, h⟩
      · have hg' : k.withGA = false := by simpa using hg
        exact not_le.1 fun h => h3 ⟨hg', _, h⟩
    · intro hg
      obtain ⟨g1, g2⟩ := hgo hg (k.iVal i)
      show 0 ≤ k.go _ + k.s _ * Real.sqrt (h 0)
      positivity

/-! ### a case that meets the hypotheses: the example step and the three-fold rotation about [111] -/

/-- the three-fold rotation about [111] -/
noncomputable def exTurn : Vec 4 := fun _ => 1 / 2

theorem exTurn_cubic : quatToTensor exTurn = cubicOp (Equiv.addRight 2) (fun _ => 1) := by
  ext i j
  fin_cases i <;> fin_cases j <;> simp [quatToTensor, exTurn, cubicOp] <;> norm_num <;> decide

theorem turnX_zero (h : Vec 4) : turnX h 0 = 0 := by
  have h1 : vecdToSymm (fun _ => 0) = 0 := by
    ext i j; fin_cases i <;> fin_cases j <;> simp [vecdToSymm, ofSvecP, vecdsToSvecP]
  have h2 : symmToVecd (0 : T3) = 0 := by ext i; fin_cases i <;> simp [symmToVecd]
  unfold turnX turnE
  simp only [Pi.zero_apply]
  rw [h1, Matrix.mul_zero, Matrix.zero_mul, h2, block8_eq_zero]
  exact ⟨rfl, Matrix.mulVec_zero _⟩

example (e : Vec 5) : dot exTurn exTurn = 1 ∧ exTurn ≠ ![1, 0, 0, 0] ∧
    ∃ (π : Equiv.Perm (Fin 12)) (ε : Fin 12 → ℝ), (∀ i, ε i = 1 ∨ ε i = -1) ∧
      (∀ i, dyad ((quatToTensor exTurn).mulVec (fccS i)) ((quatToTensor exTurn).mulVec (fccM i))
        = ε i • dyad (fccS (π i)) (fccM (π i))) ∧
      KinSym (exMat exEl).kin (Step.tK (exMat exEl) (exInp exEl e) (exMem e none)) π ε ∧
      (∀ v p eV (E : T3), E.IsSymm →
        latticeStress (exMat exEl).el v p eV (quatToTensor exTurn * E * (quatToTensor exTurn).transpose)
          = quatToTensor exTurn * latticeStress (exMat exEl).el v p eV E
            * (quatToTensor exTurn).transpose) ∧
      (∀ hU P, Step.setup (exMat exEl) (exInp exEl e) (exMem e none) = .ok (hU, P) →
        Step.solve exExt (exInp exEl e) (P.turn exTurn) = { Step.solve exExt (exInp exEl e) P with
          x := turnX exTurn (Step.solve exExt (exInp exEl e) P).x
          xLast := turnX exTurn (Step.solve exExt (exInp exEl e) P).xLast } ∧
        (Updst.xiF (Step.solve exExt (exInp exEl e) P).x = 0 ∨
          1 / 10 ^ 90 < len (Updst.xiF (Step.solve exExt (exInp exEl e) P).x))) ∧
      ∃ m', getResponseSngl exExt (exMat exEl) (exInp exEl e) (exMem e none) = .ok m' := by
  have hh : dot exTurn exTurn = 1 := by simp [dot, exTurn]; norm_num
  have hq : qn exTurn = 1 := by rw [← dot_self_quat]; exact hh
  obtain ⟨π, ε, he, hm⟩ := C55_permutation fccM fccS .fcc (Equiv.addRight 2) (fun _ => 1)
  rw [← exTurn_cubic] at hm
  have hel : ∀ v p eV (E : T3), 
        latticeStress (exMat exEl).el v p eV (quatToTensor exTurn * E * (quatToTensor exTurn).transpose)
          = quatToTensor exTurn * latticeStress (exMat exEl).el v p eV E
            * (quatToTensor exTurn).transpose := fun v p eV E =>
    latticeStress_turn (isRot_of_unit hq).1 (isRot_of_unit hq).2.1
      (by rw [exTurn_cubic]; exact cubic_elastSym _ _ _ _ _) (Or.inl rfl) v p eV E
  have hk : KinSym (exMat exEl).kin (Step.tK (exMat exEl) (exInp exEl e) (exMem e none)) π ε :=
    C55_voce _ (by norm_num [voceExample]) _ _ π ε he
  refine ⟨hh, ?_, π, ε, he, hm, hk, fun v p eV E _ => hel v p eV E, ?_, ex_ok exEl exEl_pos e none⟩
  · intro h
    have := congrFun h 1
    simp [exTurn] at this
  · intro hU P hP
    rw [ex_setup] at hP
    cases hP
    rw [ex_solve]
    refine ⟨?_, Or.inl Updst.xiF_zero⟩
    simp only [turnX_zero]
    set P := exProb exEl e (symmToVecd (dev (sym (exL exEl e)))) (axial (exL exEl e)) with hPd
    have S : P.Symmetry fccM fccS (quatToTensor exTurn) :=
      { geom := rfl, slip := fcc_slip, π := π, ε := ε, sgn := he
        map := fun i => by rw [← dyad_mulVec]; exact hm i
        rate := rate_of_odd he (fun i τ => rfl) fun i τ =>
          (C24_odd voceExample (by norm_num [voceExample]) 1 τ one_pos).1
        elast := fun E _ => hel _ _ _ E }
    have hcn : qn P.cN = 1 := by rw [hPd]; simp [qn, exProb]
    have hr := P.turn_resid S hq hcn (by norm_num [hPd, exProb]) 0 (Or.inl Updst.xiF_zero)
    have h0 : P.resid 0 = 0 := ex_resid exEl e
    rw [turnX_zero, h0, turnX_zero] at hr
    have ht : 0 ≤ (exInp exEl e).tol := by norm_num [exInp]
    show probe 8 (P.turn exTurn).problem (exInp exEl e).tol 200 0 = _
    refine probe_zero (J := (P.turn exTurn).jac 0) ?_ ht 200
    exact congrArg (fun r => some (r, (P.turn exTurn).jac 0)) hr

end Ecm.Props
