/-
  C112: what the single-crystal test prints (test/test_updst.cxx, driver_a): it is the single-crystal run of the
  polycrystal test; the printed pressure is the accumulated work of the printed stresses up to the step before; the
  perturbed rates of the difference quotients are those of a tangent per engineering strain.
-/
import Verif.Model.TestUpdst
import Verif.Props.TestPx
import Verif.Props.Heat

namespace Ecm.Props
open Ecm Ecm.Spec Classical

variable {n nH : ℕ}

/-! ### What is expected -/

/-- what is printed after step `j + 1` of a run -/
noncomputable def updLine (t : ℕ → Mem nH n) (k : Fin nH) (j : ℕ) : UpdLine where
  time := (j + 1) * 2000
  stress := (t (j + 1)).stress 2
  hard := (histOf (t (j + 1))).h k
  press := (t (j + 1)).stress 6

/-- the inputs of one step of the test with the rates `d` and the volume ratios `vr` -/
noncomputable def updInp (tol : ℝ) (d : Vec 7) (vr : Vec 4) : Inputs := ⟨2000, tol, d, 0, vr⟩

/-- the rate of deformation: deviatoric part and a third of the rate of volume on the diagonal -/
noncomputable def fullRate (d : Vec 7) : Mat 3 3 := devOfSvecP d + (d 6 / 3) • (1 : Mat 3 3)

/-- the symmetric matrix with the unit engineering strain `j` -/
noncomputable def unitStrain (j : Fin 6) : Mat 3 3 :=
  (![!![1, 0, 0; 0, 0, 0; 0, 0, 0], !![0, 0, 0; 0, 1, 0; 0, 0, 0], !![0, 0, 0; 0, 0, 0; 0, 0, 1],
    !![0, 0, 0; 0, 0, 1 / 2; 0, 1 / 2, 0], !![0, 0, 1 / 2; 0, 0, 0; 1 / 2, 0, 0],
    !![0, 1 / 2, 0; 1 / 2, 0, 0; 0, 0, 0]] : Fin 6 → Mat 3 3) j

/-! ### One call -/

theorem updDt_eq : updDt = 2000 := by unfold updDt updRelRate; norm_num

theorem updRates_eq : updRates = (pxInp 0).d := by
  funext i
  fin_cases i <;> simp [updRates, updRelRate, pxInp, pxDir] <;> norm_num

/-- the arrays of the test; the tangent, if there is an array for it, has 36 entries -/
structure OneArrays (nHist : ℕ) (b : BatchMem) : Prop where
  eInt : b.eInt.len = 1
  stress : b.stress.len = 7
  hist : b.hist.len = nHist
  tkelv : b.tkelv.len = 1
  sdd : b.sdd.len = 2
  mtan : ∀ t, b.mtan = some t → t.len = 36

theorem vecBuf_slice {k : ℕ} (v : Vec k) (s : ℕ) : slice (vecBuf v).val s 0 k = v := by
  funext j
  simp [slice, vecBuf]

theorem updIn_point (st : Strides) (tol : ℝ) (d : Vec 7) (vr : Vec 4) :
    pointInp st { updIn d vr with tol := tol } 0 = updInp tol d vr := by
  unfold pointInp updInp updIn
  simp only [vecBuf_slice, updDt_eq]
  rfl

theorem one_call {c : Case} {m : MM c.type} {M : Material c.type.nslip c.type.nH} {tol : ℝ} (hM : Uses m M tol) (X : Ext)
    (d : Vec 7) (vr : Vec 4) {b : BatchMem} (hb : OneArrays c.type.numHist b) :
    ((∃ b', m.getResponse X (updIn d vr) 1 b = .ok b') ↔ ∃ m', getResponseSngl X M (updInp tol d vr)
      (pointMem (Strides.default c.type.numHist) b 0) = .ok m') ∧
    ∀ b', m.getResponse X (updIn d vr) 1 b = .ok b' → OneArrays c.type.numHist b' ∧
      (b'.mtan.isSome ↔ b.mtan.isSome) ∧ getResponseSngl X M (updInp tol d vr)
        (pointMem (Strides.default c.type.numHist) b 0) = .ok (pointMem (Strides.default c.type.numHist) b' 0) := by
  set st := Strides.default c.type.numHist with hst
  set a : BatchIn := { updIn d vr with tol := tol } with ha
  have hA : st.Accepted (numHist c.type.nH c.type.nslip) :=
    ⟨le_refl _, le_refl _, le_refl _, le_refl _, le_refl _, le_refl _, le_refl _, le_refl _⟩
  have hH : ∀ i < 1, Holds (numHist c.type.nH c.type.nslip) st a b i := by
    intro i hi
    obtain rfl : i = 0 := by omega
    refine ⟨le_refl 7, le_refl 3, le_refl 4, ?_, ?_, ?_, ?_, ?_, fun t ht => ?_⟩
    · rw [hb.eInt]; simp
    · rw [hb.stress]; simp
    · rw [hb.hist]; simp [MType.numHist]
    · rw [hb.tkelv]; simp
    · rw [hb.sdd]; simp
    · rw [hb.mtan t ht]
  have hO : ∀ i < 1, NoOverflow st b i := by
    intro i hi
    obtain rfl : i = 0 := by omega
    refine ⟨⟨?_, ?_, ?_, ?_, ?_, ?_, ?_, ?_⟩, fun _ => ?_⟩ <;> simp
  obtain ⟨r1, r2⟩ := C35_independent X M st a b 1 hA hH hO (List.range 1) (List.Perm.refl _)
  have hi : pointInp st a 0 = updInp tol d vr := updIn_point st tol d vr
  have hcall : m.getResponse X (updIn d vr) 1 b = batchLoop X M st a (List.range 1) b := hM X _ 1 b
  rw [hcall]
  refine ⟨r1.trans ⟨fun h => ?_, fun h i hi' => ?_⟩, fun b' hb' => ⟨?_, ?_, ?_⟩⟩
  · rw [← hi]; exact h 0 (by norm_num)
  · obtain rfl : i = 0 := by omega
    rw [hi]; exact h
  all_goals try (rw [← hi]; exact r2 b' hb' 0 (by norm_num))
  all_goals
    simp only [List.range_succ, List.range_zero, List.nil_append, batchLoop] at hb'
    unfold batchPoint at hb'
    split at hb'
    all_goals try cases hb'
    rename_i b1 hp
    split at hp
    all_goals try cases hp
    split at hp
    all_goals try cases hp
  · refine ⟨hb.eInt, hb.stress, hb.hist, hb.tkelv, hb.sdd, fun t ht => ?_⟩
    simp only [BatchMem.store] at ht
    split at ht
    · rename_i t0 v h0 h1
      cases ht
      exact hb.mtan t0 h0
    · exact hb.mtan t ht
  · simp only [BatchMem.store]
    split
    · rename_i t0 v h0 h1
      simp [h0]
    · exact Iff.rfl

/-! ### The loop -/

theorem updVol_one (d : Vec 7) (hd : d 6 = 0) : updVol d 1 = .ok ![1, 1, 0, 0] := by
  unfold updVol
  rw [hd, updDt_eq]
  norm_num

theorem updInp_eq (tol : ℝ) : updInp tol updRates ![1, 1, 0, 0] = pxInp tol := by
  unfold updInp
  rw [updRates_eq]
  rfl

theorem upd_rows {c : Case} {m : MM c.type} {M : Material c.type.nslip c.type.nH} {tol : ℝ} (hM : Uses m M tol) (X : Ext) :
    ∀ (K : ℕ) (t0 : ℝ) (vr : Vec 4) (b : BatchMem), vr 1 = 1 → OneArrays c.type.numHist b → b.mtan = none →
      ((∃ r, updLoop X m K t0 vr b = .ok r) ↔ ∃ t : ℕ → Mem c.type.nH c.type.nslip,
        Pulled X M tol K (pointMem (Strides.default c.type.numHist) b 0) t) ∧
      ∀ out vr' b', updLoop X m K t0 vr b = .ok (out, vr', b') → vr' 1 = 1 ∧ OneArrays c.type.numHist b' ∧ b'.mtan = none ∧
        ∃ t : ℕ → Mem c.type.nH c.type.nslip, Pulled X M tol K (pointMem (Strides.default c.type.numHist) b 0) t ∧
          t K = pointMem (Strides.default c.type.numHist) b' 0 ∧
          out = (List.range K).map fun (j : ℕ) => (⟨t0 + (j + 1) * 2000, (t (j + 1)).stress 2,
            (t (j + 1)).hist ⟨13, by have : c.type.nH = 1 := by cases c <;> rfl
                                     unfold numHist; omega⟩, (t (j + 1)).stress 6⟩ : UpdLine)
  | 0, t0, vr, b, hv, hb, hn => by
    refine ⟨⟨fun _ => ⟨fun _ => pointMem (Strides.default c.type.numHist) b 0, rfl, fun j hj => absurd hj (by omega)⟩,
      fun _ => ⟨_, rfl⟩⟩, fun out vr' b' h => ?_⟩
    cases h
    exact ⟨hv, hb, hn, fun _ => pointMem (Strides.default c.type.numHist) b 0, ⟨rfl, fun j hj => absurd hj (by omega)⟩, rfl, rfl⟩
  | K + 1, t0, vr, b, hv, hb, hn => by
    have hd6 : updRates 6 = 0 := by simp [updRates]
    obtain ⟨r1, r2⟩ := one_call hM X updRates ![1, 1, 0, 0] hb
    rw [updInp_eq] at r1 r2
    have hloop : updLoop X m (K + 1) t0 vr b = match m.getResponse X (updIn updRates ![1, 1, 0, 0]) 1 b with
        | .ok b' => Out.bind (updLoop X m K (t0 + updDt) ![1, 1, 0, 0] b') fun r =>
          .ok (⟨t0 + updDt, b'.stress.val 2, b'.hist.val 13, b'.stress.val 6⟩ :: r.1, r.2)
        | .fail s _ => .fail s
        | .undef w => .undef w := by
      show Out.bind (updVol updRates (vr 1)) _ = _
      rw [hv, updVol_one _ hd6]
      rfl
    rw [hloop]
    cases hg : m.getResponse X (updIn updRates ![1, 1, 0, 0]) 1 b with
    | ok b1 =>
      obtain ⟨ha, hi, hs⟩ := r2 b1 hg
      have hn1 : b1.mtan = none := by
        rw [hn] at hi
        simpa using hi
      obtain ⟨q1, q2⟩ := upd_rows hM X K (t0 + updDt) ![1, 1, 0, 0] b1 rfl ha hn1
      refine ⟨⟨fun ⟨r, hr⟩ => ?_, fun ⟨t, ht⟩ => ?_⟩, fun out vr' b' h => ?_⟩
      · simp only at hr
        cases hr' : updLoop X m K (t0 + updDt) ![1, 1, 0, 0] b1 with
        | ok r' =>
          obtain ⟨t, ht⟩ := q1.1 ⟨r', hr'⟩
          refine ⟨fun j => match j with
            | 0 => pointMem (Strides.default c.type.numHist) b 0
            | j + 1 => t j, rfl, fun j hj => ?_⟩
          cases j with
          | zero => show _ = Res.ok (t 0); rw [ht.1]; exact hs
          | succ j => exact ht.2 j (by omega)
        | fail s => rw [hr'] at hr; cases hr
        | undef w => rw [hr'] at hr; cases hr
      · have e := ht.2 0 (by omega)
        rw [ht.1, hs] at e
        obtain ⟨r', hr'⟩ := q1.2 ⟨fun j => t (j + 1), (Res.ok.inj e).symm, fun j hj => ht.2 (j + 1) (by omega)⟩
        simp only [hr', Out.bind]
        exact ⟨_, rfl⟩
      · simp only at h
        cases hr' : updLoop X m K (t0 + updDt) ![1, 1, 0, 0] b1 with
        | ok r' =>
          obtain ⟨o1, v1, b2⟩ := r'
          rw [hr'] at h
          simp only [Out.bind] at h
          cases h
          obtain ⟨w1, w2, w3, t, ht, hK, ho⟩ := q2 o1 vr' b' hr'
          refine ⟨w1, w2, w3, fun j => match j with
            | 0 => pointMem (Strides.default c.type.numHist) b 0
            | j + 1 => t j, ⟨rfl, fun j hj => ?_⟩, hK, ?_⟩
          · cases j with
            | zero => show _ = Res.ok (t 0); rw [ht.1]; exact hs
            | succ j => exact ht.2 j (by omega)
          · rw [List.range_succ_eq_map, List.map_cons, List.map_map, ho]
            congr 1
            · simp only [ht.1, updDt_eq, pointMem, slice]
              norm_num [Strides.default]
            · apply List.map_congr_left
              intro j _
              simp only [Function.comp, updDt_eq, Nat.succ_eq_add_one]
              push_cast
              congr 1
              ring
        | fail s => rw [hr'] at h; cases h
        | undef w => rw [hr'] at h; cases h
    | fail s b1 =>
      refine ⟨⟨fun ⟨r, hr⟩ => (by cases hr), fun ⟨t, ht⟩ => ?_⟩, fun out vr' b' h => (by cases h)⟩
      obtain ⟨b', hb'⟩ := r1.2 ⟨t 1, by rw [← ht.1]; exact ht.2 0 (by omega)⟩
      rw [hg] at hb'; cases hb'
    | undef w =>
      refine ⟨⟨fun ⟨r, hr⟩ => (by cases hr), fun ⟨t, ht⟩ => ?_⟩, fun out vr' b' h => (by cases h)⟩
      obtain ⟨b', hb'⟩ := r1.2 ⟨t 1, by rw [← ht.1]; exact ht.2 0 (by omega)⟩
      rw [hg] at hb'; cases hb'

/-! ### The start -/

/-- the orientation the test starts with -/
noncomputable def updStartQuat (turned : Bool) : Vec 4 := if turned then updQuat else ![1, 0, 0, 0]

theorem updQuat_norm : ∑ j, updQuat j ^ 2 = 1 := by
  simp only [Fin.sum_univ_four, updQuat, Matrix.cons_val]
  have h1 := Real.sin_sq_add_cos_sq (0.5 * 0.2)
  have h2 := Real.sin_sq_add_cos_sq 0.7
  linear_combination h1 + Real.sin (0.5 * 0.2) ^ 2 * h2

theorem updStart_unit (turned : Bool) : unitQuat (updStartQuat turned) = updStartQuat turned := by
  have h : ∑ j, updStartQuat turned j ^ 2 = 1 := by
    cases turned
    · simp [updStartQuat, Fin.sum_univ_four]
    · exact updQuat_norm
  funext i
  unfold unitQuat
  rw [h, Real.sqrt_one, div_one]

theorem updStart_ne (turned : Bool) : updStartQuat turned ≠ 0 := by
  intro h
  have h1 : ∑ j, updStartQuat turned j ^ 2 = 1 := by
    cases turned
    · simp [updStartQuat, Fin.sum_univ_four]
    · exact updQuat_norm
  rw [h] at h1
  simp at h1

theorem upd_start {S : Solver 1} {c : Case} {pars : List ℝ} {m : MM c.type} {d : List HistEntry}
    (hi : (MM.new c.type (Strides.default c.type.numHist)).initFromParams S [] pars [] = (m, .ok ()))
    (hd : m.getHistInfo = .ok d) (turned : Bool) (tk : ℝ) (sd : Vec 2) :
    (pointMem (Strides.default c.type.numHist)
      ⟨constBuf 1 0, constBuf 7 0, updHistBuf d turned, constBuf 1 tk, vecBuf sd, none⟩ 0 : Mem c.type.nH c.type.nslip)
      = pxBegin c.type.nH c.type.nslip (pars.getD (parCount c - 3) 0) (updStartQuat turned) tk sd := by
  have hm : m = ((MM.new c.type (Strides.default c.type.numHist)).initFromParams S [] pars []).1 := by rw [hi]
  have ho : ((MM.new c.type (Strides.default c.type.numHist)).initFromParams S [] pars []).2 = .ok () := by rw [hi]
  rw [hm] at hd
  obtain ⟨a1, a2, a3, a4, a5, b0, b1, b2, b3, a6, -⟩ := C41_initial S _ [] pars [] ho d hd
  have a7 := C41_hardness c S _ [] pars [] ho d hd
  have hnH : c.type.nH = 1 := by cases c <;> rfl
  have hval : ∀ j, ¬ (9 ≤ j ∧ j < 13) → (updHistBuf d turned).val (c.type.numHist * 0 + j) = (entry d j).init := by
    intro j h
    simp only [updHistBuf, Nat.mul_zero, Nat.zero_add]
    rw [dif_neg (fun h' => h h'.2)]
    rfl
  simp only [Hist.ofArray, initialArray] at a1 a2 a3 a4 a5 a6 b0 b1 b2 b3
  have hquat : ∀ k : Fin 4, (updHistBuf d turned).val (c.type.numHist * 0 + (9 + k)) = updStartQuat turned k := by
    intro k
    simp only [updHistBuf, Nat.mul_zero, Nat.zero_add, updStartQuat]
    cases turned
    · rw [dif_neg (by simp)]
      fin_cases k
      · exact b0
      · exact b1
      · exact b2
      · exact b3
    · rw [dif_pos ⟨rfl, by omega, by omega⟩]
      simp only [if_true]
      congr 1
      apply Fin.ext
      simp
  unfold pointMem pxBegin
  rw [updStart_unit]
  congr 1
  · rw [← Hist.toArray_ofArray (slice _ _ _ _)]
    congr 1
    unfold Hist.ofArray
    congr 1
    · exact (hval 0 (by omega)).trans a1
    · exact (hval 1 (by omega)).trans a2
    · exact (hval 2 (by omega)).trans a3
    · exact (hval 3 (by omega)).trans a4
    · funext k
      exact (hval (4 + k) (by omega)).trans (a5 k)
    · funext k
      exact hquat k
    · funext k
      have hk : k.val = 0 := by have := k.2; omega
      refine (hval (13 + k) (by omega)).trans ?_
      rw [hk, a7]
    · funext k
      exact (hval (13 + c.type.nH + k) (by omega)).trans (a6 k)
  · exact vecBuf_slice sd _

/-! ### What is printed -/

theorem case_nH_pos (c : Case) : 0 < c.type.nH := by cases c <;> exact Nat.one_pos

/-- **C112, what is printed.** For parameters of any of the models and any number of steps: the program comes to the end of
    its loop exactly when the crystal can be pulled through all steps; the volume ratios are one; each line shows time,
    axial deviatoric stress, hardening variable and pressure of this run. -/
theorem C112_printed {S : Solver 1} {c : Case} {pars : List ℝ} {M : Material c.type.nslip c.type.nH} {tol : ℝ}
    (h : BuiltFrom c.type S pars M tol) (X : Ext) (K : ℕ) (turned : Bool) (tk : ℝ) (sd : Vec 2) :
    ((∃ r, updRun c S pars X K turned tk sd = .ok r) ↔ ∃ t : ℕ → Mem c.type.nH c.type.nslip, Pulled X M tol K
      (pxBegin c.type.nH c.type.nslip (pars.getD (parCount c - 3) 0) (updStartQuat turned) tk sd) t) ∧
    ∀ m out vr b, updRun c S pars X K turned tk sd = .ok (m, out, vr, b) → Uses m M tol ∧ vr 1 = 1 ∧
      OneArrays c.type.numHist b ∧ b.mtan = none ∧ ∃ t : ℕ → Mem c.type.nH c.type.nslip, Pulled X M tol K
        (pxBegin c.type.nH c.type.nslip (pars.getD (parCount c - 3) 0) (updStartQuat turned) tk sd) t ∧
        t K = pointMem (Strides.default c.type.numHist) b 0 ∧ out = (List.range K).map (updLine t ⟨0, case_nH_pos c⟩) := by
  obtain ⟨m, m', d, h1, h2, h3, h4, h5⟩ := px_built h
  have hlen : d.length = c.type.numHist := by
    have hm : m = ((MM.new c.type (Strides.default c.type.numHist)).initFromParams S [] pars []).1 := by rw [h1]
    obtain ⟨d', e1, e2⟩ := C41_length S (MM.new c.type (Strides.default c.type.numHist)) [] pars [] (by rw [h1])
    rw [← hm, h5] at e1
    cases e1
    exact e2
  have hrun : updRun c S pars X K turned tk sd = Out.bind (updLoop X m' K 0 ![1, 1, 0, 0]
      ⟨constBuf 1 0, constBuf 7 0, updHistBuf d turned, constBuf 1 tk, vecBuf sd, none⟩) fun r => .ok (m', r) := by
    unfold updRun
    rw [h1]
    simp only [h2, h4, Out.bind]
  obtain ⟨r1, r2⟩ := upd_rows h3 X K 0 ![1, 1, 0, 0]
    ⟨constBuf 1 0, constBuf 7 0, updHistBuf d turned, constBuf 1 tk, vecBuf sd, none⟩ rfl
    ⟨rfl, rfl, hlen, rfl, rfl, fun t ht => by cases ht⟩ rfl
  rw [upd_start h1 h5] at r1 r2
  rw [hrun]
  constructor
  · rw [← r1]
    constructor
    · rintro ⟨r, hr⟩
      cases hl : updLoop X m' K 0 ![1, 1, 0, 0]
          ⟨constBuf 1 0, constBuf 7 0, updHistBuf d turned, constBuf 1 tk, vecBuf sd, none⟩ with
      | ok q => exact ⟨q, rfl⟩
      | fail s => rw [hl] at hr; cases hr
      | undef w => rw [hl] at hr; cases hr
    · rintro ⟨r, hr⟩
      rw [hr]
      exact ⟨_, rfl⟩
  · intro mm out vr b hr
    cases hl : updLoop X m' K 0 ![1, 1, 0, 0]
        ⟨constBuf 1 0, constBuf 7 0, updHistBuf d turned, constBuf 1 tk, vecBuf sd, none⟩ with
    | ok q =>
      obtain ⟨o, v, b'⟩ := q
      rw [hl] at hr
      cases hr
      obtain ⟨w1, w2, w3, t, ht, hK, ho⟩ := r2 _ _ _ hl
      refine ⟨h3, w1, w2, w3, t, ht, hK, ho.trans ?_⟩
      apply List.map_congr_left
      intro j _
      simp only [updLine, histOf, Hist.ofArray, zero_add, Nat.add_zero]
    | fail s => rw [hl] at hr; cases hr
    | undef w => rw [hl] at hr; cases hr

theorem pulled_unique {X : Ext} {M : Material n nH} {tol : ℝ} {K : ℕ} {m0 : Mem nH n} {t t' : ℕ → Mem nH n}
    (h : Pulled X M tol K m0 t) (h' : Pulled X M tol K m0 t') : ∀ j ≤ K, t' j = t j := by
  intro j
  induction j with
  | zero => intro _; rw [h.1, h'.1]
  | succ j ih =>
    intro hj
    have e := h'.2 j hj
    rw [ih (by omega), h.2 j hj] at e
    injection e with e
    exact e.symm

/-- **C112, memory that is not initialised.** With other contents of the arrays for temperature and moduli the program comes
    to the end of its loop as well and prints the same lines. -/
theorem C112_memory {S : Solver 1} {c : Case} {pars : List ℝ} {M : Material c.type.nslip c.type.nH} {tol : ℝ}
    (h : BuiltFrom c.type S pars M tol) (X : Ext) (K : ℕ) (turned : Bool) (tk tk' : ℝ) (sd sd' : Vec 2)
    (m : MM c.type) (out : List UpdLine) (vr : Vec 4) (b : BatchMem)
    (hr : updRun c S pars X K turned tk sd = .ok (m, out, vr, b)) :
    ∃ m' vr' b', updRun c S pars X K turned tk' sd' = .ok (m', out, vr', b') := by
  obtain ⟨-, -, -, -, t, ht, -, ho⟩ := (C112_printed h X K turned tk sd).2 _ _ _ _ hr
  obtain ⟨t', ht', e⟩ := pulled_junk h (T' := tk') (sd' := sd') ht
  obtain ⟨⟨m', out', vr', b'⟩, hr'⟩ := (C112_printed h X K turned tk' sd').1.2 ⟨t', ht'⟩
  obtain ⟨-, -, -, -, u, hu, -, ho'⟩ := (C112_printed h X K turned tk' sd').2 _ _ _ _ hr'
  have : out' = out := by
    rw [ho, ho']
    apply List.map_congr_left
    intro j hj
    have hj := List.mem_range.1 hj
    unfold updLine
    rw [pulled_unique ht' hu (j + 1) hj, e j hj]
  exact ⟨m', vr', b', by rw [hr', this]⟩

/-! ### Pressure and energy -/

/-- the equation of state of the test, for cubic crystals -/
structure UpdEos (M : Material n nH) : Prop where
  cubic : ∃ c11 c12 c44, M.el = .cubic c11 c12 c44
  warm : M.eos.isothermal = false
  gamma : M.eos.gamma = 1.7

theorem updEos_A (S : Solver 1) : UpdEos (pxMatA S) := ⟨⟨3, 1, 1, rfl⟩, rfl, rfl⟩

theorem updEos_B (S : Solver 1) : UpdEos (pxMatB S) := ⟨⟨3, 1, 1, rfl⟩, rfl, rfl⟩

theorem pulled_dev {X : Ext} {M : Material n nH} {tol : ℝ} {K : ℕ} {h0 : ℝ} {q : Vec 4} {T : ℝ} {sd : Vec 2}
    {t : ℕ → Mem nH n} (ht : Pulled X M tol K (pxBegin nH n h0 q T sd) t) :
    ∀ j ≤ K, (t j).stress 0 + (t j).stress 1 + (t j).stress 2 = 0 := by
  intro j hj
  cases j with
  | zero => rw [ht.1]; simp [pxBegin]
  | succ j =>
    have := C84_deviator X M (pxInp tol) _ _ (ht.2 j (by omega))
    rw [isDev_iff] at this
    simp [devOfSvecP] at this
    linarith

/-- **C112, energy and pressure.** In a run of the test the energy grows in each step by 1.5e-3 times the sum of the axial
    stresses before and after; the pressure after a step is 1.7 times the energy before it. -/
theorem C112_step {X : Ext} {M : Material n nH} (hE : UpdEos M) {tol : ℝ} {K : ℕ} {h0 : ℝ} {q : Vec 4} {T : ℝ} {sd : Vec 2}
    {t : ℕ → Mem nH n} (ht : Pulled X M tol K (pxBegin nH n h0 q T sd) t) : ∀ j < K,
      (t (j + 1)).eInt = (t j).eInt + 1.5e-3 * ((t j).stress 2 + (t (j + 1)).stress 2) ∧
      (t (j + 1)).stress 6 = 1.7 * (t j).eInt := by
  intro j hj
  have ok := ht.2 j hj
  have d0 := pulled_dev ht j hj.le
  have d1 := pulled_dev ht (j + 1) hj
  constructor
  · rw [C23_energy X M (pxInp tol) _ _ ok]
    simp only [ddot, devOfSvecP, Fin.sum_univ_three, pxInp, pxDir, Matrix.cons_val, Matrix.of_apply, Matrix.cons_val']
    norm_num
    linear_combination (-(1 / 2000) : ℝ) * d0 - 1 / 2000 * d1
  · obtain ⟨c11, c12, c44, hel⟩ := hE.cubic
    rw [C22_cubic X M (pxInp tol) _ _ c11 c12 c44 hel ok]
    simp [Eos.evalPT, hE.warm, hE.gamma, pxInp]

/-- **C112, the pressure column.** The pressure printed in a line is 1.7 times 1.5e-3 times the sum, over the steps before,
    of the axial stresses before and after the step: it is determined by the stresses of the earlier lines and does not
    depend on the stress of its own line. -/
theorem C112_pressure {X : Ext} {M : Material n nH} (hE : UpdEos M) {tol : ℝ} {K : ℕ} {h0 : ℝ} {q : Vec 4} {T : ℝ}
    {sd : Vec 2} {t : ℕ → Mem nH n} (ht : Pulled X M tol K (pxBegin nH n h0 q T sd) t) : ∀ j < K,
      (t (j + 1)).stress 6 = 1.7 * (1.5e-3 * (2 * ∑ i ∈ Finset.range (j + 1), (t i).stress 2 - (t j).stress 2)) := by
  have h0s : (t 0).stress 2 = 0 := by rw [ht.1]; rfl
  have hen : ∀ j ≤ K, (t j).eInt = 1.5e-3 * (2 * ∑ i ∈ Finset.range (j + 1), (t i).stress 2 - (t j).stress 2) := by
    intro j
    induction j with
    | zero => intro _; simp [h0s]; rw [ht.1]; rfl
    | succ j ih =>
      intro hj
      rw [(C112_step hE ht j (by omega)).1, ih (by omega), Finset.sum_range_succ _ (j + 1)]
      ring
  intro j hj
  rw [(C112_step hE ht j hj).2, hen j hj.le]

/-- **C112, the check of the last line.** What the test requires of the hundredth line is a requirement on its stress, one on
    its hardening variable and, instead of the one on the pressure, one on the 197 stresses in the sum of `C112_pressure`: their
    mean is 0.00332602112947 / 0.502350 to within 1e-10 / 0.502350.  The stress of the hundredth step itself, the one that is
    checked, is not among them. -/
theorem C112_expected {X : Ext} {M : Material n nH} (hE : UpdEos M) {tol : ℝ} {h0 : ℝ} {q : Vec 4} {T : ℝ} {sd : Vec 2}
    {t : ℕ → Mem nH n} (ht : Pulled X M tol 100 (pxBegin nH n h0 q T sd) t) (k : Fin nH) :
    UpdPasses (updLine t k 99) ↔ |(t 100).stress 2 - 0.006664661118275| < 1 / 10 ^ 10 ∧
      |(histOf (t 100)).h k - 88.61845050083| < 1 / 10 ^ 8 ∧
      |(2 * ∑ i ∈ Finset.range 100, (t i).stress 2 - (t 99).stress 2) / 197 - 0.00332602112947 / 0.502350|
        < 1e-10 / 0.502350 := by
  have h1 := C112_pressure hE ht 99 (by norm_num)
  have key : |(t 100).stress 6 - 0.00332602112947| < 1e-10 ↔
      |(2 * ∑ i ∈ Finset.range 100, (t i).stress 2 - (t 99).stress 2) / 197 - 0.00332602112947 / 0.502350|
        < 1e-10 / 0.502350 := by
    norm_num at h1 ⊢
    rw [h1, abs_lt, abs_lt]
    constructor <;> rintro ⟨h2, h3⟩ <;> constructor <;> linarith
  unfold UpdPasses
  simp only [updLine]
  rw [← key]
  norm_num

/-! ### With power-law slip the loop comes to its end -/

/-- **C112, the loop reaches its end.** With KIN_TYPE 0, either orientation and solvers that find the solutions there are, a
    hundred lines are printed; the pressures in them are those of `C112_pressure`. -/
theorem C112_ends (S : Solver 1) (hS : Finds S) (X : Ext) (hX : Finds X.solver) (turned : Bool) (tk : ℝ) (sd : Vec 2) :
    ∃ m out vr b, updRun .fccA S pxParsVoce X 100 turned tk sd = .ok (m, out, vr, b) ∧ out.length = 100 := by
  have hp : pxParsVoce.getD (parCount .fccA - 3) 0 = (testVoce false).hdnInit := by
    norm_num [pxParsVoce, parCount, testVoce]
  obtain ⟨r1, r2⟩ := C112_printed (C110_material_voce S) X 100 turned tk sd
  obtain ⟨⟨m, out, vr, b⟩, hr⟩ := r1.2 (by rw [hp]; exact voce_pulled S hS X hX (updStart_ne turned) tk sd)
  obtain ⟨-, -, -, -, t, -, -, ho⟩ := r2 m out vr b hr
  exact ⟨m, out, vr, b, hr, by rw [ho]; simp⟩

/-- hypotheses of `C112_memory`: the same hundred lines with other contents of the memory -/
example : ∃ m m' out vr vr' b b', out.length = 100 ∧
    updRun .fccA (idealSolver 1) pxParsVoce ⟨idealSolver 8, fun _ B => some B, 1⟩ 100 true 0 0 = .ok (m, out, vr, b) ∧
    updRun .fccA (idealSolver 1) pxParsVoce ⟨idealSolver 8, fun _ B => some B, 1⟩ 100 true (-5) ![7, 1] = .ok (m', out, vr', b') := by
  obtain ⟨m, out, vr, b, h, hl⟩ := C112_ends _ (idealSolver_finds 1) ⟨idealSolver 8, fun _ B => some B, 1⟩
    (idealSolver_finds 8) true 0 0
  obtain ⟨m', vr', b', h'⟩ := C112_memory (C110_material_voce _) _ 100 true 0 (-5) 0 ![7, 1] m out vr b h
  exact ⟨m, m', out, vr, vr', b, b', hl, h, h'⟩

/-- the hypotheses of `C112_ends`, `C112_printed`, `C112_step`, `C112_pressure` and `C112_expected` can be met -/
example (turned : Bool) : ∃ t : ℕ → Mem 1 12, Pulled ⟨idealSolver 8, fun _ B => some B, 1⟩ (pxMatA (idealSolver 1)) 1e-10 100
    (pxBegin 1 12 (testVoce false).hdnInit (updStartQuat turned) 0 0) t ∧ (t 1).stress 6 = 0 ∧
    (t 2).stress 6 = 1.7 * (1.5e-3 * (t 1).stress 2) := by
  obtain ⟨t, ht⟩ := voce_pulled _ (idealSolver_finds 1) ⟨idealSolver 8, fun _ B => some B, 1⟩ (idealSolver_finds 8)
    (updStart_ne turned) 0 0
  have h0 : (t 0).stress 2 = 0 := by rw [ht.1]; rfl
  refine ⟨t, ht, ?_, ?_⟩
  · rw [C112_pressure (updEos_A _) ht 0 (by norm_num)]
    simp [h0]
  · rw [C112_pressure (updEos_A _) ht 1 (by norm_num)]
    simp only [Finset.sum_range_succ, Finset.sum_range_zero, h0]
    ring

/-! ### The difference quotients -/

/-- **C112, the perturbed rates.** The rate of deformation of column `j` is that of the test plus 1e-14 times the unit
    engineering strain `j`; the deviatoric entries still have no trace. -/
theorem C112_direction (j : Fin 6) : fullRate (updPert j) = fullRate updRates + updPertVal • unitStrain j ∧
    IsDev (devOfSvecP (updPert j)) := by
  constructor
  · ext a b
    fin_cases j <;> fin_cases a <;> fin_cases b <;>
      simp [fullRate, updPert, updRates, unitStrain, devOfSvecP, updPertVal, updRelRate] <;> norm_num
  · rw [isDev_iff]
    fin_cases j <;> simp [updPert, updRates, devOfSvecP, updPertVal, updRelRate] <;> norm_num

/-- the volume ratios of column `j`, from the volume ratio one -/
noncomputable def pertVol (j : Fin 6) : Vec 4 :=
  let v := Real.exp (updPert j 6 * 2000)
  ![1, v, (v - 1) / (1000 * (1 + v)), v - 1]

theorem updVol_pert (j : Fin 6) : updVol (updPert j) 1 = .ok (pertVol j) := by
  have hv := Real.exp_pos (updPert j 6 * 2000)
  unfold updVol pertVol
  simp only [updDt_eq, one_mul]
  rw [if_neg (by positivity)]
  norm_num

theorem updCol_ok {c : Case} {m : MM c.type} {M : Material c.type.nslip c.type.nH} {tol : ℝ} (hM : Uses m M tol)
    {X : Ext} {b : BatchMem} (hb : OneArrays c.type.numHist b) {s : Vec 6} {tk : ℝ} {sd : Vec 2} {j : Fin 6} {col : Vec 6}
    (h : updCol X m 1 b s tk sd j = .ok col) : ∃ mp : Mem c.type.nH c.type.nslip,
      getResponseSngl X M (updInp tol (updPert j) (pertVol j)) { pointMem (Strides.default c.type.numHist) b 0 with
        tkelv := tk, sdd := sd, mtan := none } = .ok mp ∧
      ∀ i, col i = (svecpToSvec mp.stress i - s i) / 1e-14 / 2000 := by
  unfold updCol at h
  rw [updVol_pert] at h
  simp only [Out.bind] at h
  have hb' : OneArrays c.type.numHist ⟨b.eInt, b.stress, b.hist, constBuf 1 tk, vecBuf sd, none⟩ :=
    ⟨hb.eInt, hb.stress, hb.hist, rfl, rfl, fun t ht => by cases ht⟩
  obtain ⟨-, r2⟩ := one_call hM X (updPert j) (pertVol j) hb'
  split at h
  · rename_i b1 hg
    obtain ⟨-, -, hs⟩ := r2 b1 hg
    refine ⟨pointMem (Strides.default c.type.numHist) b1 0, ?_, fun i => ?_⟩
    · rw [← hs]
      congr 1
      unfold pointMem
      simp only [vecBuf_slice]
      rfl
    · rw [← Out.ok.inj h, updDt_eq, show updPertVal = 1e-14 by norm_num [updPertVal, updRelRate]]
      rfl
  · cases h
  · cases h

theorem updCols_ok {f : Fin 6 → Out (Vec 6)} {fd : Mat 6 6} (h : updCols f = .ok fd) :
    ∀ j, ∃ col, f j = .ok col ∧ ∀ i, fd i j = col i := by
  unfold updCols at h
  cases h0 : f 0 with
  | ok c0 => cases h1 : f 1 with
    | ok c1 => cases h2 : f 2 with
      | ok c2 => cases h3 : f 3 with
        | ok c3 => cases h4 : f 4 with
          | ok c4 => cases h5 : f 5 with
            | ok c5 =>
              simp only [h0, h1, h2, h3, h4, h5, Out.bind] at h
              cases h
              intro j
              fin_cases j
              · exact ⟨c0, h0, fun i => rfl⟩
              · exact ⟨c1, h1, fun i => rfl⟩
              · exact ⟨c2, h2, fun i => rfl⟩
              · exact ⟨c3, h3, fun i => rfl⟩
              · exact ⟨c4, h4, fun i => rfl⟩
              · exact ⟨c5, h5, fun i => rfl⟩
            | _ => simp [h0, h1, h2, h3, h4, h5, Out.bind] at h
          | _ => simp [h0, h1, h2, h3, h4, Out.bind] at h
        | _ => simp [h0, h1, h2, h3, Out.bind] at h
      | _ => simp [h0, h1, h2, Out.bind] at h
    | _ => simp [h0, h1, Out.bind] at h
  | _ => simp [h0, Out.bind] at h

/-- **C112, the quotients.** If the last part of the test ends, started with the volume ratio one, then the step with the
    tangent and the six perturbed steps from the same state have succeeded; what is compared is the tangent of that step and,
    in column `j`, the differences of the full stresses over 1e-14 and over the time step. -/
theorem C112_quotients {c : Case} {m : MM c.type} {M : Material c.type.nslip c.type.nH} {tol : ℝ} (hM : Uses m M tol)
    (X : Ext) (vr : Vec 4) (hv : vr 1 = 1) (b : BatchMem) (hb : OneArrays c.type.numHist b) (mt : Vec 36) (tk : Fin 6 → ℝ)
    (sd : Fin 6 → Vec 2) (an fd : Mat 6 6) (h : updFd X m vr b mt tk sd = .ok (an, fd)) :
    ∃ (m1 : Mem c.type.nH c.type.nslip) (mp : Fin 6 → Mem c.type.nH c.type.nslip),
      getResponseSngl X M (pxInp tol) { pointMem (Strides.default c.type.numHist) b 0 with mtan := some (matOfWin mt) } = .ok m1 ∧
      m1.mtan = some an ∧ ∀ j,
        getResponseSngl X M (updInp tol (updPert j) (pertVol j)) { pointMem (Strides.default c.type.numHist) b 0 with
          tkelv := tk j, sdd := sd j, mtan := none } = .ok (mp j) ∧
        ∀ i, fd i j = (svecpToSvec (mp j).stress i - svecpToSvec m1.stress i) / 1e-14 / 2000 := by
  have hd6 : updRates 6 = 0 := by simp [updRates]
  unfold updFd at h
  rw [hv, updVol_one _ hd6] at h
  simp only [Out.bind] at h
  have hb' : OneArrays c.type.numHist { b with mtan := some (vecBuf mt) } :=
    ⟨hb.eInt, hb.stress, hb.hist, hb.tkelv, hb.sdd, fun t ht => by cases ht; rfl⟩
  obtain ⟨-, r2⟩ := one_call hM X updRates ![1, 1, 0, 0] hb'
  rw [updInp_eq] at r2
  split at h
  · rename_i b1 hg
    obtain ⟨-, -, hs⟩ := r2 b1 hg
    split at h
    · rename_i tb htb
      cases hc : updCols fun j => updCol X m 1 b (svecpToSvec (b1.stress.win 0 7)) (tk j) (sd j) j with
      | ok fd' =>
        rw [hc] at h
        simp only at h
        cases h
        have hcols := updCols_ok hc
        have hex : ∀ j, ∃ mp : Mem c.type.nH c.type.nslip, getResponseSngl X M (updInp tol (updPert j) (pertVol j))
            { pointMem (Strides.default c.type.numHist) b 0 with tkelv := tk j, sdd := sd j, mtan := none } = .ok mp ∧
            ∀ i, fd i j = (svecpToSvec mp.stress i - svecpToSvec (b1.stress.win 0 7) i) / 1e-14 / 2000 := by
          intro j
          obtain ⟨col, h1, h2⟩ := hcols j
          obtain ⟨mp, h3, h4⟩ := updCol_ok hM hb h1
          exact ⟨mp, h3, fun i => (h2 i).trans (h4 i)⟩
        choose mp hmp using hex
        refine ⟨pointMem (Strides.default c.type.numHist) b1 0, mp, ?_, ?_, fun j => ⟨(hmp j).1, fun i => ?_⟩⟩
        · rw [← hs]
          congr 1
          have e : matOfWin mt = fun p q => slice (vecBuf mt).val 36 0 36 ⟨6 * p.val + q.val, by omega⟩ := by
            rw [vecBuf_slice]
            rfl
          rw [e]
          rfl
        · simp only [pointMem, htb]
          rfl
        · exact (hmp j).2 i
      | fail s => rw [hc] at h; cases h
      | undef w => rw [hc] at h; cases h
    · cases h
  · cases h
  · cases h

theorem pert_vol_rate (j : Fin 6) : updPert j 6 * 2000 = if j.val < 3 then 2 / 10 ^ 11 else 0 := by
  fin_cases j <;> simp [updPert, updRates, updPertVal, updRelRate] <;> norm_num

theorem svecp_mean {X : Ext} {M : Material n nH} {inp : Inputs} {m m' : Mem nH n} (h : getResponseSngl X M inp m = .ok m') :
    svecpToSvec m'.stress 0 + svecpToSvec m'.stress 1 + svecpToSvec m'.stress 2 = -3 * m'.stress 6 := by
  have := C84_deviator X M inp m m' h
  rw [isDev_iff] at this
  simp [devOfSvecP] at this
  simp only [svecpToSvec, Matrix.cons_val]
  linarith

/-- **C112, the mean stress in the quotients.** Whatever the solver returns, the mean of the first three entries of a column
    of difference quotients is, for the normal strains, the bulk modulus plus 1.7 times the pressure before the step to within
    two parts in 1e11, and zero for the shear strains; the mean of the nine entries of the tangent is this modulus with its
    lower bound. -/
theorem C112_mean {c : Case} {m : MM c.type} {M : Material c.type.nslip c.type.nH} (hE : UpdEos M) {tol : ℝ}
    (hM : Uses m M tol) (X : Ext) (vr : Vec 4) (hv : vr 1 = 1) (b : BatchMem) (hb : OneArrays c.type.numHist b)
    (mt : Vec 36) (tk : Fin 6 → ℝ) (sd : Fin 6 → Vec 2) (an fd : Mat 6 6) (h : updFd X m vr b mt tk sd = .ok (an, fd))
    (p : ℝ) (hp : p = b.stress.val 6) :
    (∀ j : Fin 6, j.val < 3 → |(fd 0 j + fd 1 j + fd 2 j) / 3 - (M.eos.bulkMod + 1.7 * p)|
      ≤ 2 / 10 ^ 11 * (|M.eos.bulkMod| + 1.7 * |p|)) ∧
    (∀ j : Fin 6, 3 ≤ j.val → fd 0 j + fd 1 j + fd 2 j = 0) ∧
    ((an 0 0 + an 0 1 + an 0 2) + (an 1 0 + an 1 1 + an 1 2) + (an 2 0 + an 2 1 + an 2 2)) / 9
      = max (1 / 10 ^ 5 * M.eos.bulkMod) (M.eos.bulkMod + 1.7 * p) := by
  obtain ⟨m1, mp, ok1, han, hcol⟩ := C112_quotients hM X vr hv b hb mt tk sd an fd h
  obtain ⟨c11, c12, c44, hel⟩ := hE.cubic
  set m0 : Mem c.type.nH c.type.nslip := pointMem (Strides.default c.type.numHist) b 0 with hm0
  have hp0 : m0.stress 6 = p := by rw [hp]; rfl
  set K := M.eos.bulkMod with hK
  have hev : ∀ v e, (M.eos.evalPT v e).1 = K * (1 / v - 1) + 1.7 * e := by
    intro v e
    simp [Eos.evalPT, hE.warm, hE.gamma, hK]
  have p1 : m1.stress 6 = 1.7 * m0.eInt := by
    rw [C22_cubic X M _ _ _ c11 c12 c44 hel ok1, hev]
    simp [pxInp]
  have hmean : ∀ j, (fd 0 j + fd 1 j + fd 2 j) / 3 = -((mp j).stress 6 - m1.stress 6) / (2 / 10 ^ 11) := by
    intro j
    obtain ⟨okj, hf⟩ := hcol j
    have e1 := svecp_mean okj
    have e2 := svecp_mean ok1
    rw [hf 0, hf 1, hf 2]
    norm_num
    linear_combination (50000000000 / 3 : ℝ) * (e1 - e2)
  have hpj : ∀ j, (mp j).stress 6 = K * (1 / Real.exp (updPert j 6 * 2000) - 1)
      + 1.7 * (m0.eInt - (Real.exp (updPert j 6 * 2000) - 1) * p) := by
    intro j
    rw [C22_cubic X M _ _ _ c11 c12 c44 hel (hcol j).1, hev, ← hp0]
    rfl
  refine ⟨fun j hj => ?_, fun j hj => ?_, ?_⟩
  · have hr := pert_vol_rate j
    rw [if_pos hj] at hr
    rw [hmean, hpj, p1, hr]
    have a1 := Real.abs_exp_sub_one_sub_id_le (x := 2 / 10 ^ 11) (by rw [abs_of_pos] <;> norm_num)
    have a2 := Real.abs_exp_sub_one_sub_id_le (x := -(2 / 10 ^ 11)) (by rw [abs_neg, abs_of_pos] <;> norm_num)
    rw [Real.exp_neg, ← one_div] at a2
    generalize Real.exp (2 / 10 ^ 11) = v at a1 a2
    have hid : -(K * (1 / v - 1) + 1.7 * (m0.eInt - (v - 1) * p) - 1.7 * m0.eInt) / (2 / 10 ^ 11) - (K + 1.7 * p)
        = (-K * (1 / v - 1 - -(2 / 10 ^ 11)) + 1.7 * p * (v - 1 - 2 / 10 ^ 11)) / (2 / 10 ^ 11) := by
      field_simp
      ring
    rw [hid, abs_div, abs_of_pos (show (0 : ℝ) < 2 / 10 ^ 11 by norm_num), div_le_iff₀ (by norm_num)]
    refine (abs_add_le _ _).trans ?_
    rw [abs_mul, abs_mul, abs_mul, abs_neg, abs_of_pos (show (0 : ℝ) < 1.7 by norm_num)]
    have b1 := mul_le_mul_of_nonneg_left a2 (abs_nonneg K)
    have b2 := mul_le_mul_of_nonneg_left a1 (show 0 ≤ 1.7 * |p| by positivity)
    refine (add_le_add b1 b2).trans (le_of_eq ?_)
    ring
  · have hr := pert_vol_rate j
    rw [if_neg (by omega)] at hr
    have := hmean j
    rw [hpj, p1, hr, Real.exp_zero] at this
    have h0 : (fd 0 j + fd 1 j + fd 2 j) / 3 = 0 := by rw [this]; simp
    linarith
  · obtain ⟨s⟩ := getResponseSngl_ok ok1
    have ht := s.ht
    rw [han] at ht
    have hvol := C15_volumetric s.P X _ _ an ht
    have hbk : (Step.eosUpdate M (pxInp tol) { m0 with mtan := some (matOfWin mt) }).bulkNew
        = max (1 / 10 ^ 5 * K) (K + 1.7 * p) := by
      simp [Step.eosUpdate, Eos.updateSimple, Eos.evalPTDiff, pxInp, hE.warm, hE.gamma, hp0, hK]
      norm_num
    rw [hbk] at hvol
    have v0 := congrFun hvol 0
    have v1 := congrFun hvol 1
    have v2 := congrFun hvol 2
    simp [Matrix.mulVec, dotProduct, Fin.sum_univ_six] at v0 v1 v2
    linarith

/-- **C112, the volume part of the comparison.** The mean of the nine normal entries is compared without any influence of the
    solver: if the modulus is above its lower bound the two means agree to within two parts in 1e11; if the test passes, the
    modulus is at most 1e-3 (and these two parts) below its lower bound. -/
theorem C112_volume {c : Case} {m : MM c.type} {M : Material c.type.nslip c.type.nH} (hE : UpdEos M) {tol : ℝ}
    (hM : Uses m M tol) (X : Ext) (vr : Vec 4) (hv : vr 1 = 1) (b : BatchMem) (hb : OneArrays c.type.numHist b)
    (mt : Vec 36) (tk : Fin 6 → ℝ) (sd : Fin 6 → Vec 2) (an fd : Mat 6 6) (h : updFd X m vr b mt tk sd = .ok (an, fd))
    (p : ℝ) (hp : p = b.stress.val 6) :
    (1 / 10 ^ 5 * M.eos.bulkMod ≤ M.eos.bulkMod + 1.7 * p →
      |(∑ i : Fin 3, ∑ j : Fin 3, fd (i.castLE (by norm_num)) (j.castLE (by norm_num))) / 9
        - (∑ i : Fin 3, ∑ j : Fin 3, an (i.castLE (by norm_num)) (j.castLE (by norm_num))) / 9|
        ≤ 2 / 10 ^ 11 * (|M.eos.bulkMod| + 1.7 * |p|)) ∧
    (UpdFdPasses an fd → 1 / 10 ^ 5 * M.eos.bulkMod - (M.eos.bulkMod + 1.7 * p)
      < 1 / 10 ^ 3 + 2 / 10 ^ 11 * (|M.eos.bulkMod| + 1.7 * |p|)) := by
  obtain ⟨h1, -, h3⟩ := C112_mean hE hM X vr hv b hb mt tk sd an fd h p hp
  have q0 := abs_le.1 (h1 0 (by norm_num))
  have q1 := abs_le.1 (h1 1 (by norm_num))
  have q2 := abs_le.1 (h1 2 (by norm_num))
  have sf : (∑ i : Fin 3, ∑ j : Fin 3, fd (i.castLE (by norm_num)) (j.castLE (by norm_num)))
      = (fd 0 0 + fd 0 1 + fd 0 2) + (fd 1 0 + fd 1 1 + fd 1 2) + (fd 2 0 + fd 2 1 + fd 2 2) := by
    simp only [Fin.sum_univ_three]; rfl
  have sa : (∑ i : Fin 3, ∑ j : Fin 3, an (i.castLE (by norm_num)) (j.castLE (by norm_num)))
      = (an 0 0 + an 0 1 + an 0 2) + (an 1 0 + an 1 1 + an 1 2) + (an 2 0 + an 2 1 + an 2 2) := by
    simp only [Fin.sum_univ_three]; rfl
  constructor
  · intro hf
    rw [max_eq_right hf] at h3
    rw [sf, sa, abs_le]
    constructor <;> linarith [q0.1, q0.2, q1.1, q1.2, q2.1, q2.2]
  · intro ht
    have hm := le_max_left (1 / 10 ^ 5 * M.eos.bulkMod) (M.eos.bulkMod + 1.7 * p)
    have e : ∀ i j, an i j - fd i j < 1 / 10 ^ 3 := fun i j => by
      have := (abs_lt.1 (ht i j)).1
      norm_num at this ⊢
      linarith
    linarith [q0.1, q0.2, q1.1, q1.2, q2.1, q2.2, e 0 0, e 0 1, e 0 2, e 1 0, e 1 1, e 1 2, e 2 0, e 2 1, e 2 2]

/-! ### With power-law slip the comparison comes to its end -/

/-- the kinetics with XM_MUSHY -/
noncomputable def mushy : Voce := { testVoce false with xm := 1 / 10 }

/-- the material of the test with DO_FD_CHECK_MTAN -/
noncomputable def updMat (S : Solver 1) : Material 12 1 := { pxMatA S with kin := mushy.kin S 12 }

theorem updParsMushy_eq : updParsMushy = vocePars 3 2e-5 1e-10 3 1 1 mushy 1.7 (-(2e-5) * 300) := by
  simp [updParsMushy, vocePars, Voce.getParams, mushy, testVoce]
  norm_num

/-- the parameters of the test are accepted and give this material -/
theorem C112_material (S : Solver 1) : BuiltFrom Case.fccA.type S updParsMushy (updMat S) 1e-10 := by
  rw [updParsMushy_eq]
  refine ⟨3, 2e-5, 1.7, -(2e-5) * 300, [], [3, 1, 1], mushy.getParams, mushy.histInfo, rfl, rfl, rfl,
    rfl, C16_fcc.2, rfl, ?_, px_bulk, rfl, rfl⟩
  show kinVoce false 12 S mushy.getParams = _
  unfold kinVoce
  have : Voce.setParams false mushy.getParams = .ok mushy := by
    have := Voce.setParams_lin mushy.mu mushy.xm mushy.gamW mushy.h0 mushy.tausi mushy.taus0 mushy.xms mushy.gamss0
      mushy.hdnInit
    unfold Voce.getParams
    rw [this]
    rfl
  rw [this]
  rfl

theorem mushy_steady : Steady 12 mushy 40 :=
  ⟨rfl, by norm_num [mushy], testVoce_steady.gamW, testVoce_steady.h0, testVoce_steady.gamss0, by norm_num,
    testVoce_steady.sat⟩

/-- steps like those of the test can be taken from states like those of the test -/
theorem mushy_loads {E : ℝ} (h0 : 0 ≤ E) (h1 : E ≤ 101) {d : Vec 7} {vr : Vec 4} (hd : IsDev (devOfSvecP d))
    (hf : frob (devOfSvecP d) ≤ 2 / 10 ^ 6) (v1 : 1 ≤ vr 1) (v2 : vr 1 ≤ 8) :
    Loads 12 mushy (stiff 3 1 1) (1e-3 / 2) E (updInp 1e-10 d vr) := by
  have hκ : stiff 3 1 1 = 2 := by unfold stiff; norm_num
  have hsq : Real.sqrt 2 ≤ 3 / 2 := by rw [Real.sqrt_le_left (by norm_num)]; norm_num
  have hsq0 := Real.sqrt_nonneg 2
  have hw : mushy.gamW = 1 := rfl
  have hf0 : 0 ≤ frob (devOfSvecP d) := Real.sqrt_nonneg _
  have hxm : (1 : ℝ) ≤ (10 ^ 60 : ℝ) ^ mushy.xm := Real.one_le_rpow (by norm_num) (by norm_num [mushy])
  have hc1 : 1 ≤ (vr 1) ^ (1 / 3 : ℝ) := Real.one_le_rpow v1 (by norm_num)
  have hc2 : (vr 1) ^ (1 / 3 : ℝ) ≤ 8 :=
    (Real.rpow_le_rpow_of_exponent_le v1 (by norm_num : (1 / 3 : ℝ) ≤ 1)).trans (by rw [Real.rpow_one]; exact v2)
  refine ⟨by norm_num [updInp], lt_of_lt_of_le one_pos v1, hd, ?_, ?_⟩
  · unfold imposed
    rw [hκ, hw]
    simp only [updInp]
    generalize frob (devOfSvecP d) = f at hf hf0
    generalize (vr 1) ^ (1 / 3 : ℝ) = w at hc1 hc2
    generalize Real.sqrt 2 = σ at hsq hsq0
    generalize (10 ^ 60 : ℝ) ^ mushy.xm = z at hxm
    calc (E + 2000 * w * (σ * f)) ^ 2 ≤ (101 + 2000 * 8 * (3 / 2 * (2 / 10 ^ 6))) ^ 2 := by gcongr
      _ ≤ 4 * (2000 * 1 ^ 2) * (1 * (1e-3 / 2) * (10 ^ 60 * 1)) := by norm_num
      _ ≤ 4 * (2000 * w ^ 2) * (z * (1e-3 / 2) * (10 ^ 60 * 1)) := by gcongr
  · have hl : len (updInp 1e-10 d vr).w = 0 := by
      show Real.sqrt (dot 0 0) = 0
      simp [dot]
    rw [hl]
    norm_num [updInp]

theorem mushy_supply : 0 ≤ stepSupply (stiff 3 1 1) mushy.gamW (pxInp 1e-10) ∧
    stepSupply (stiff 3 1 1) mushy.gamW (pxInp 1e-10) ≤ 1 := by
  have hκ : stiff 3 1 1 = 2 := by unfold stiff; norm_num
  have hsq : Real.sqrt 2 ≤ 3 / 2 := by rw [Real.sqrt_le_left (by norm_num)]; norm_num
  have hsq0 := Real.sqrt_nonneg 2
  have hw : mushy.gamW = 1 := rfl
  have hdt : (pxInp 1e-10).dt = 2000 := rfl
  have ht : (pxInp 1e-10).tol = 1e-10 := rfl
  have hv : (pxInp 1e-10).vr 1 = 1 := rfl
  obtain ⟨hf, -⟩ := px_frob 1e-10
  have hf0 : 0 ≤ frob (devOfSvecP (pxInp 1e-10).d) := Real.sqrt_nonneg _
  unfold stepSupply
  rw [hκ, hw, hdt, ht, hv, Real.one_rpow]
  generalize frob (devOfSvecP (pxInp 1e-10).d) = f at hf hf0
  have h3 : f + 1e-10 * (1 + f + 1 / 10 ^ 6 / 2000) ≤ 1 / 10 ^ 5 := by norm_num at hf ⊢; linarith
  generalize Real.sqrt 2 = σ at hsq hsq0
  refine ⟨by positivity, ?_⟩
  calc 2000 * 1 * (σ * (f + 1e-10 * (1 + f + 1 / 10 ^ 6 / 2000))) ≤ 2000 * 1 * (3 / 2 * (1 / 10 ^ 5)) := by gcongr
    _ ≤ 1 := by norm_num

theorem updMat_power (S : Solver 1) : PowerCubic (updMat S) mushy S 3 1 1 :=
  ⟨⟨fccM, fccS, rfl, C16_fcc.1⟩, rfl, rfl, by norm_num, by norm_num [updMat, pxMatA]⟩

/-- the range of the states of a run -/
theorem mushy_range (S : Solver 1) (hS : Finds S) (X : Ext) (hX : Finds X.solver) {q : Vec 4} (hq : q ≠ 0) (T : ℝ)
    (sd : Vec 2) : (∃ t, Pulled X (updMat S) 1e-10 100 (pxBegin 1 12 mushy.hdnInit q T sd) t) ∧
    ∀ t, Pulled X (updMat S) 1e-10 100 (pxBegin 1 12 mushy.hdnInit q T sd) t →
      InRange mushy (updMat S).el (lowAt 1e-3 40 100) (highAt 40 100) 100 (histOf (t 100)) := by
  obtain ⟨s0, s1⟩ := mushy_supply
  obtain ⟨hf, hdev⟩ := px_frob 1e-10
  let m0 := pxBegin 1 12 mushy.hdnInit q T sd
  have hm0 : histOf m0 = { shrateEff := 0, shrEff := 0, flowStr := 0, nFEval := 0, e := 0, q := unitQuat q
                           h := fun _ => mushy.hdnInit, gdot := 0 } := Hist.ofArray_toArray _
  have hi : mushy.hdnInit = 1e-3 := by norm_num [mushy, testVoce]
  have start : InRange mushy (updMat S).el (lowAt 1e-3 40 0) (highAt 40 0) (0 : ℕ) (histOf m0) := by
    rw [hm0]
    refine ⟨unitQuat_ne hq, ?_, ?_, ?_, ?_⟩
    · unfold lowAt; rw [hi]; norm_num
    · unfold highAt; rw [hi]; norm_num
    · rw [energyNorm_eq]
      unfold wNorm
      simp
    · simp only [Pi.zero_apply, abs_zero, Finset.sum_const_zero]
      have : mushy.gamW = 1 := rfl
      rw [this]
      positivity
  have key : ∀ j, j < 100 → ∀ m : Mem 1 12, m.mtan = none →
      InRange mushy (updMat S).el (lowAt 1e-3 40 j) (highAt 40 j) j (histOf m) →
      ∃ m', getResponseSngl X (updMat S) (pxInp 1e-10) m = .ok m' ∧ m'.mtan = none ∧
        InRange mushy (updMat S).el (lowAt 1e-3 40 (j + 1)) (highAt 40 (j + 1)) (j + 1 : ℕ) (histOf m') := by
    intro j hj m hmt hr
    have hjR : (j : ℝ) ≤ 101 := by exact_mod_cast (by omega : j ≤ 101)
    have hl := mushy_loads (Nat.cast_nonneg j) hjR (d := (pxInp 1e-10).d) (vr := ![1, 1, 0, 0]) hdev hf (by simp)
      (by norm_num)
    obtain ⟨m', h1, h2⟩ := C82_next hS (updMat_power S) mushy_steady (hm := 1e-3) (by norm_num)
      (by norm_num [mushy, testVoce]) (K := 100) (by norm_num) (by norm_num) j hj _ X hX (pxInp 1e-10) hl m hr (Or.inl hmt)
    refine ⟨m', h1, ?_, h2.mono le_rfl le_rfl (by push_cast; linarith)⟩
    have := getResponseSngl_mtan.1 m' h1
    rw [hmt] at this
    simpa using this
  constructor
  · let next : Mem 1 12 → Mem 1 12 := fun m =>
      match getResponseSngl X (updMat S) (pxInp 1e-10) m with
      | .ok m' => m'
      | _ => m
    let t : ℕ → Mem 1 12 := fun j => next^[j] m0
    have hstep : ∀ j, t (j + 1) = next (t j) := fun j => Function.iterate_succ_apply' next j m0
    have nx : ∀ j m', getResponseSngl X (updMat S) (pxInp 1e-10) (t j) = .ok m' → t (j + 1) = m' := by
      intro j m' h1
      rw [hstep]
      show (match getResponseSngl X (updMat S) (pxInp 1e-10) (t j) with | .ok m' => m' | _ => t j) = m'
      rw [h1]
    have all : ∀ j, j ≤ 100 → (t j).mtan = none ∧ InRange mushy (updMat S).el (lowAt 1e-3 40 j) (highAt 40 j) j
        (histOf (t j)) := by
      intro j
      induction j with
      | zero => intro _; exact ⟨rfl, start⟩
      | succ j ih =>
        intro hj
        obtain ⟨h1, h2⟩ := ih (by omega)
        obtain ⟨m', h3, h4, h5⟩ := key j (by omega) _ h1 h2
        rw [nx j m' h3]
        exact ⟨h4, h5⟩
    refine ⟨t, rfl, fun j hj => ?_⟩
    obtain ⟨h1, h2⟩ := all j hj.le
    obtain ⟨m', h3, -, -⟩ := key j hj _ h1 h2
    rw [nx j m' h3, h3]
  · intro t ht
    have all : ∀ j, j ≤ 100 → (t j).mtan = none ∧ InRange mushy (updMat S).el (lowAt 1e-3 40 j) (highAt 40 j) j
        (histOf (t j)) := by
      intro j
      induction j with
      | zero => intro _; rw [ht.1]; exact ⟨rfl, start⟩
      | succ j ih =>
        intro hj
        obtain ⟨h1, h2⟩ := ih (by omega)
        obtain ⟨m', h3, h4, h5⟩ := key j (by omega) _ h1 h2
        rw [ht.2 j (by omega)] at h3
        rw [Res.ok.inj h3]
        exact ⟨h4, h5⟩
    exact_mod_cast (all 100 le_rfl).2

theorem pert_frob (j : Fin 6) : frob (devOfSvecP (updPert j)) ≤ 2 / 10 ^ 6 := by
  unfold frob
  rw [Real.sqrt_le_left (by norm_num)]
  fin_cases j <;>
    simp [ddot, Fin.sum_univ_three, devOfSvecP, updPert, updRates, updPertVal, updRelRate] <;> norm_num

/-- **C112, the comparison is reached.** With solvers that find the solutions there are and a linear solver that does not
    fail, the test with DO_FD_CHECK_MTAN gets through its hundred steps, the step with the tangent and the six perturbed
    steps; with `C112_mean`, the mean stresses in the quotients and the tangent are then known. -/
theorem C112_fd_ends (S : Solver 1) (hS : Finds S) (X : Ext) (hX : Finds X.solver) (hL : ∀ A B, (X.lup A B).isSome)
    (tk : ℝ) (sd : Vec 2) (mt : Vec 36) (tkp : Fin 6 → ℝ) (sdp : Fin 6 → Vec 2) :
    ∃ an fd, updCheck S X tk sd mt tkp sdp = .ok (an, fd) := by
  have hp : updParsMushy.getD (parCount .fccA - 3) 0 = mushy.hdnInit := by
    norm_num [updParsMushy, parCount, mushy, testVoce]
  obtain ⟨r1, r2⟩ := C112_printed (C112_material S) X 100 true tk sd
  rw [hp] at r1 r2
  obtain ⟨hex, hrange⟩ := mushy_range S hS X hX (updStart_ne true) tk sd
  obtain ⟨⟨m, out, vr, b⟩, hr⟩ := r1.2 hex
  obtain ⟨hM, hv, hb, hn, t, ht, hK, -⟩ := r2 m out vr b hr
  have hin := hrange t ht
  rw [hK] at hin
  have hgo : ∀ (d : Vec 7) (v : Vec 4) (m0 : Mem 1 12), IsDev (devOfSvecP d) → frob (devOfSvecP d) ≤ 2 / 10 ^ 6 → 1 ≤ v 1 →
      v 1 ≤ 8 → histOf m0 = histOf (pointMem (Strides.default Case.fccA.type.numHist) b 0 : Mem 1 12) →
      ∃ m', getResponseSngl X (updMat S) (updInp 1e-10 d v) m0 = .ok m' := by
    intro d v m0 h1 h2 h3 h4 h5
    have hl := mushy_loads (E := 100) (by norm_num) (by norm_num) h1 h2 h3 h4
    obtain ⟨m', h6, -⟩ := C82_next hS (updMat_power S) mushy_steady (hm := 1e-3) (by norm_num)
      (by norm_num [mushy, testVoce]) (K := 101) (by norm_num) (by norm_num) 100 (by norm_num) _ X hX _ hl m0
      (by rw [h5]; exact hin) (Or.inr hL)
    exact ⟨m', h6⟩
  have hd6 : updRates 6 = 0 := by simp [updRates]
  obtain ⟨hf, hdev⟩ := px_frob 1e-10
  have hb1 : OneArrays Case.fccA.type.numHist { b with mtan := some (vecBuf mt) } :=
    ⟨hb.eInt, hb.stress, hb.hist, hb.tkelv, hb.sdd, fun t ht => by cases ht; rfl⟩
  obtain ⟨q1, q2⟩ := one_call hM X updRates ![1, 1, 0, 0] hb1
  obtain ⟨b1, hg⟩ := q1.2 (hgo updRates ![1, 1, 0, 0] _ (by rw [updRates_eq]; exact hdev)
    (by rw [updRates_eq]; exact hf) (by simp) (by norm_num) rfl)
  obtain ⟨-, hsome, -⟩ := q2 b1 hg
  obtain ⟨tb, htb⟩ := Option.isSome_iff_exists.1 (hsome.2 rfl)
  have hcol : ∀ j s, ∃ col, updCol X m 1 b s (tkp j) (sdp j) j = .ok col := by
    intro j s
    have hbj : OneArrays Case.fccA.type.numHist ⟨b.eInt, b.stress, b.hist, constBuf 1 (tkp j), vecBuf (sdp j), none⟩ :=
      ⟨hb.eInt, hb.stress, hb.hist, rfl, rfl, fun t ht => by cases ht⟩
    obtain ⟨w1, -⟩ := one_call hM X (updPert j) (pertVol j) hbj
    have hv1 : pertVol j 1 = Real.exp (updPert j 6 * 2000) := rfl
    have hrate := pert_vol_rate j
    have hx : 0 ≤ updPert j 6 * 2000 ∧ updPert j 6 * 2000 ≤ 1 := by
      rw [hrate]
      split <;> norm_num
    obtain ⟨bj, hgj⟩ := w1.2 (hgo (updPert j) (pertVol j) _ (C112_direction j).2 (pert_frob j)
      (by rw [hv1]; exact Real.one_le_exp hx.1)
      (by rw [hv1]; exact (Real.exp_le_exp.2 hx.2).trans (by linarith [Real.exp_one_lt_d9])) rfl)
    unfold updCol
    rw [updVol_pert]
    simp only [Out.bind, hgj]
    exact ⟨_, rfl⟩
  unfold updCheck
  rw [hr]
  simp only [Out.bind]
  unfold updFd
  rw [hv, updVol_one _ hd6]
  simp only [Out.bind, hg, htb]
  have hall : ∃ fd, (updCols fun j => updCol X m 1 b (svecpToSvec (b1.stress.win 0 7)) (tkp j) (sdp j) j) = .ok fd := by
    choose col hc using fun j => hcol j (svecpToSvec (b1.stress.win 0 7))
    unfold updCols
    simp only [hc, Out.bind]
    exact ⟨_, rfl⟩
  obtain ⟨fd, hfd⟩ := hall
  rw [hfd]
  exact ⟨_, _, rfl⟩

/-- the hypotheses can be met, and those of `C112_quotients`, `C112_mean` and `C112_volume` with them -/
example : ∃ (m : MM Case.fccA.type) (an fd : Mat 6 6), ∃ vr : Vec 4, ∃ b, Uses m (updMat (idealSolver 1)) 1e-10 ∧ vr 1 = 1 ∧
    OneArrays Case.fccA.type.numHist b ∧ UpdEos (updMat (idealSolver 1)) ∧
    updFd ⟨idealSolver 8, fun _ B => some B, 1⟩ m vr b 0 0 0 = .ok (an, fd) := by
  obtain ⟨an, fd, h⟩ := C112_fd_ends _ (idealSolver_finds 1) ⟨idealSolver 8, fun _ B => some B, 1⟩ (idealSolver_finds 8)
    (fun _ _ => rfl) 0 0 0 0 0
  unfold updCheck at h
  cases hr : updRun .fccA (idealSolver 1) updParsMushy ⟨idealSolver 8, fun _ B => some B, 1⟩ 100 true 0 0 with
  | ok r =>
    obtain ⟨m, out, vr, b⟩ := r
    rw [hr] at h
    obtain ⟨h1, h2, h3, -⟩ := (C112_printed (C112_material _) _ 100 true 0 0).2 m out vr b hr
    exact ⟨m, an, fd, vr, b, h1, h2, h3, ⟨⟨3, 1, 1, rfl⟩, rfl, rfl⟩, h⟩
  | fail s => rw [hr] at h; cases h
  | undef w => rw [hr] at h; cases h

end Ecm.Props
