/-
  C110: what the polycrystal test prints (test/test_px.cxx): the means over crystals that are pulled independently of each
  other; the volume ratios stay one; neither the order of the crystals nor what is in the memory that is not initialised
  matters; with power-law slip the test comes to its end.
-/
import Verif.Model.TestPx
import Verif.Props.PyCall
import Verif.Props.SlowLoad
import Verif.Props.Restart

namespace Ecm.Props
open Ecm Ecm.Spec Classical

variable {n nH : ℕ}

/-! ### What is expected -/

/-- the direction of a quaternion -/
noncomputable def unitQuat (q : Vec 4) : Vec 4 := fun i => q i / Real.sqrt (∑ j, q j ^ 2)

/-- an unloaded crystal with the orientation of `q` and the strength (or density) `h0`; temperature and moduli hold
    whatever was in memory -/
noncomputable def pxBegin (nH n : ℕ) (h0 : ℝ) (q : Vec 4) (T : ℝ) (sdd : Vec 2) : Mem nH n where
  eInt := 0
  stress := 0
  hist := ({ shrateEff := 0, shrEff := 0, flowStr := 0, nFEval := 0, e := 0, q := unitQuat q, h := fun _ => h0
             gdot := 0 } : Hist nH n).toArray
  tkelv := T
  sdd := sdd
  mtan := none

/-- a single crystal pulled through `K` steps -/
def Pulled (X : Ext) (M : Material n nH) (tol : ℝ) (K : ℕ) (m0 : Mem nH n) (t : ℕ → Mem nH n) : Prop :=
  t 0 = m0 ∧ ∀ j < K, getResponseSngl X M (pxInp tol) (t j) = .ok (t (j + 1))

/-- the two numbers printed after step `j + 1`: the time and the mean axial stress -/
noncomputable def pxLine (N : ℕ) (t : ℕ → ℕ → Mem nH n) (t0 : ℝ) (j : ℕ) : ℝ × ℝ :=
  (t0 + (j + 1) * 2000, (∑ i ∈ Finset.range N, (t i (j + 1)).stress 2) / N)

/-! ### The volume ratios -/

theorem pxDt_eq : pxDt = 2000 := by unfold pxDt pxRelRate; norm_num

theorem pxRates_eq : pxRates = (pxInp 0).d := by
  funext i
  fin_cases i <;> simp [pxRates, pxRelRate, pxInp, pxDir] <;> norm_num

/-- what the loop needs of the volume ratios -/
structure VolReady (N : ℕ) (vol : Buf) : Prop where
  len : vol.len = 4 * N
  one : ∀ i, vol.val (4 * i + 1) = 1

theorem rate_zero (N i : ℕ) : (pxRateBuf N).val (7 * i + 6) = 0 := by
  unfold pxRateBuf
  have h : (7 * i + 6) % 7 = 6 := by omega
  simp only [h]
  simp [pxRates]

theorem volPoint_ok {N i : ℕ} {vol : Buf} (h : VolReady N vol) :
    pxVolPoint (pxRateBuf N) i vol = .ok (vol.put (4 * i) ![1, 1, 0, 0]) := by
  unfold pxVolPoint
  rw [rate_zero, h.one i, pxDt_eq]
  norm_num

theorem volPut_ready {N i : ℕ} {vol : Buf} (h : VolReady N vol) : VolReady N (vol.put (4 * i) ![1, 1, 0, 0]) := by
  refine ⟨h.len, fun j => ?_⟩
  simp only [Buf.put]
  split
  · rename_i hc
    have hj : j = i := by omega
    subst hj
    have : (4 * j + 1 - 4 * j) = 1 := by omega
    simp [this]
  · exact h.one j

theorem vols_ok {N : ℕ} : ∀ (l : List ℕ) {vol : Buf}, VolReady N vol → ∃ vol', pxVols (pxRateBuf N) l vol = .ok vol' ∧
    VolReady N vol' ∧ (∀ i, (i ∈ l ∨ slice vol.val 4 i 4 = ![1, 1, 0, 0]) → slice vol'.val 4 i 4 = ![1, 1, 0, 0])
  | [], vol, h => ⟨vol, rfl, h, fun i hi => by simpa using hi⟩
  | i :: l, vol, h => by
    obtain ⟨vol', h1, h2, h3⟩ := vols_ok l (volPut_ready (i := i) h)
    refine ⟨vol', ?_, h2, fun j hj => h3 j ?_⟩
    · show Out.bind (pxVolPoint (pxRateBuf N) i vol) _ = _
      rw [volPoint_ok h]
      exact h1
    · by_cases hij : j = i
      · right
        subst hij
        funext c
        simp only [slice, Buf.put]
        rw [dif_pos (by have := c.2; omega)]
        congr 1
        apply Fin.ext
        simp
      · rcases hj with hj | hj
        · rcases List.mem_cons.1 hj with hj | hj
          · exact absurd hj hij
          · exact Or.inl hj
        · right
          rw [← hj]
          funext c
          simp only [slice, Buf.put]
          rw [dif_neg (by have := c.2; omega)]

/-- **C110, volume ratios for any rate.** With a positive ratio before the step the four numbers of a crystal are the ratio
    before, the ratio after the step, the change over the step and the mean ratio, and the change; the other crystals keep
    theirs. -/
theorem C110_volume_any (d vol : Buf) (i : ℕ) (hv : 0 < vol.val (4 * i + 1)) : ∃ vol', pxVolPoint d i vol = .ok vol' ∧
    vol'.val (4 * i) = vol.val (4 * i + 1) ∧
    vol'.val (4 * i + 1) = vol.val (4 * i + 1) * Real.exp (d.val (7 * i + 6) * pxDt) ∧
    vol'.val (4 * i + 3) = vol'.val (4 * i + 1) - vol'.val (4 * i) ∧
    vol'.val (4 * i + 2) * (pxDt * ((vol'.val (4 * i) + vol'.val (4 * i + 1)) / 2)) = vol'.val (4 * i + 3) ∧
    0 < vol'.val (4 * i + 1) ∧ ∀ a, a / 4 ≠ i → vol'.val a = vol.val a := by
  have hd : (0 : ℝ) < pxDt := by rw [pxDt_eq]; norm_num
  have he := Real.exp_pos (d.val (7 * i + 6) * pxDt)
  have h1 := mul_pos hv he
  have hne : pxDt * 0.5 * (vol.val (4 * i + 1) + vol.val (4 * i + 1) * Real.exp (d.val (7 * i + 6) * pxDt)) ≠ 0 := by
    positivity
  have put : ∀ (v : Vec 4) (j : Fin 4), (vol.put (4 * i) v).val (4 * i + j) = v j := by
    intro v j
    simp only [Buf.put]
    rw [dif_pos (by have := j.2; omega)]
    congr 1
    apply Fin.ext
    simp
  unfold pxVolPoint
  simp only
  rw [if_neg hne]
  refine ⟨_, rfl, ?_⟩
  generalize Real.exp (d.val (7 * i + 6) * pxDt) = e at *
  generalize vol.val (4 * i + 1) = v at *
  have p0 := put ![v, v * e, (v * e - v) / (pxDt * 0.5 * (v + v * e)), v * e - v] 0
  have p1 := put ![v, v * e, (v * e - v) / (pxDt * 0.5 * (v + v * e)), v * e - v] 1
  have p2 := put ![v, v * e, (v * e - v) / (pxDt * 0.5 * (v + v * e)), v * e - v] 2
  have p3 := put ![v, v * e, (v * e - v) / (pxDt * 0.5 * (v + v * e)), v * e - v] 3
  simp only [Fin.val_zero, Fin.val_one, Fin.val_two, add_zero, Matrix.cons_val] at p0 p1 p2 p3
  have e3 : ((3 : Fin 4) : ℕ) = 3 := rfl
  rw [e3] at p3
  rw [p0, p1, p2, p3]
  refine ⟨rfl, rfl, rfl, ?_, h1, fun a ha => ?_⟩
  · rw [show pxDt * ((v + v * e) / 2) = pxDt * 0.5 * (v + v * e) by norm_num; ring]
    exact div_mul_cancel₀ _ hne
  · simp only [Buf.put]
    rw [dif_neg (by omega)]

/-- the first crystal, with the rate of the test and with any other -/
example (d : Buf) : 0 < (constBuf (4 * 16) 1).val (4 * 0 + 1) ∧ ∃ vol', pxVolPoint d 0 (constBuf (4 * 16) 1) = .ok vol' :=
  ⟨one_pos, (C110_volume_any d _ 0 one_pos).imp fun _ h => h.1⟩

/-- **C110, volume ratios.** In every step every crystal gets the ratios 1 and 1 with no rate and no change of volume. -/
theorem C110_volume (N : ℕ) (vol : Buf) (h : VolReady N vol) : ∃ vol', pxVols (pxRateBuf N) (List.range N) vol = .ok vol' ∧
    VolReady N vol' ∧ ∀ i < N, slice vol'.val 4 i 4 = ![1, 1, 0, 0] := by
  obtain ⟨vol', h1, h2, h3⟩ := vols_ok (List.range N) h
  exact ⟨vol', h1, h2, fun i hi => h3 i (Or.inl (List.mem_range.2 hi))⟩

/-- the ratios the test starts with -/
example : VolReady 16 (constBuf (4 * 16) 1) := ⟨rfl, fun _ => rfl⟩

/-! ### The loop -/

/-- the arrays of the test -/
structure PxArrays (nHist N : ℕ) (b : BatchMem) : Prop where
  eInt : b.eInt.len = N
  stress : b.stress.len = 7 * N
  hist : b.hist.len = nHist * N
  tkelv : b.tkelv.len = N
  sdd : b.sdd.len = 2 * N
  mtan : b.mtan = none

theorem store_arrays {nHist N : ℕ} {b : BatchMem} (h : PxArrays nHist N b) (st : Strides) (i : ℕ) (m : Mem nH n) :
    PxArrays nHist N (b.store st i m) := by
  refine ⟨h.eInt, h.stress, h.hist, h.tkelv, h.sdd, ?_⟩
  simp [BatchMem.store, h.mtan]

theorem loop_arrays {nHist N : ℕ} {X : Ext} {M : Material n nH} {st : Strides} {a : BatchIn} :
    ∀ (l : List ℕ) {b b' : BatchMem}, PxArrays nHist N b → batchLoop X M st a l b = .ok b' → PxArrays nHist N b'
  | [], b, b', h, hb => by cases hb; exact h
  | i :: l, b, b', h, hb => by
    unfold batchLoop at hb
    split at hb
    · rename_i b1 hp
      refine loop_arrays l ?_ hb
      unfold batchPoint at hp
      split at hp
      · split at hp
        · cases hp; exact store_arrays h _ _ _
        · cases hp
        · cases hp
      · cases hp
    · cases hb
    · cases hb

theorem pxMean_eq (N : ℕ) (s : Buf) : pxMean N s = (∑ i ∈ Finset.range N, s.val (7 * i + 2)) / N := by
  have key : ∀ k, (List.range k).foldl (fun s' i => s' + 1 / (N : ℝ) * s.val (i * 7 + 2)) 0
      = (∑ i ∈ Finset.range k, s.val (7 * i + 2)) / N := by
    intro k
    induction k with
    | zero => simp
    | succ k ih =>
      rw [List.range_succ, List.foldl_append, ih, Finset.sum_range_succ]
      simp only [List.foldl_cons, List.foldl_nil]
      rw [mul_comm k 7]
      ring
  exact key N

theorem pxInp_point {N i : ℕ} (st : Strides) (hst : st.defRate = 7 ∧ st.spin = 3 ∧ st.volRatio = 4) {vol : Buf} {tol : ℝ}
    (hv : slice vol.val 4 i 4 = ![1, 1, 0, 0]) :
    pointInp st ⟨pxDt, tol, pxRateBuf N, constBuf (3 * N) 0, vol⟩ i = pxInp tol := by
  unfold pointInp
  rw [hst.1, hst.2.1, hst.2.2, hv, pxDt_eq]
  unfold pxInp
  congr 1
  funext j
  have h1 : (7 * i + j.val) % 7 = j.val := by have := j.2; omega
  have h2 := congrFun pxRates_eq j
  simp only [slice, pxRateBuf]
  have h3 : (⟨(7 * i + j.val) % 7, Nat.mod_lt _ (by norm_num)⟩ : Fin 7) = j := Fin.ext h1
  rw [h3, h2]
  rfl

theorem loop_rows {c : Case} {m : MM c.type} {M : Material c.type.nslip c.type.nH} {tol : ℝ} (hM : Uses m M tol) (X : Ext)
    {N : ℕ} (hN : c.type.numHist * N < 2 ^ 32) : ∀ (K : ℕ) (t0 : ℝ) (vol : Buf) (b : BatchMem), VolReady N vol →
      PxArrays c.type.numHist N b → ∀ out, pxLoop X m N K t0 vol b = .ok out ↔
        ∃ t : ℕ → ℕ → Mem c.type.nH c.type.nslip,
          (∀ i < N, Pulled X M tol K (pointMem (Strides.default c.type.numHist) b i) (t i)) ∧
          out = (List.range K).map (pxLine N t t0)
  | 0, t0, vol, b, hv, hb, out => by
    constructor
    · intro h
      cases h
      exact ⟨fun i _ => pointMem (Strides.default c.type.numHist) b i, fun i _ => ⟨rfl, fun j hj => absurd hj (by omega)⟩, rfl⟩
    · rintro ⟨t, -, rfl⟩
      rfl
  | K + 1, t0, vol, b, hv, hb, out => by
    set st := Strides.default c.type.numHist with hst
    have h13 : 13 ≤ c.type.numHist := by unfold MType.numHist numHist; omega
    obtain ⟨vol', hvol, hv', hone⟩ := C110_volume N vol hv
    set a : BatchIn := ⟨pxDt, tol, pxRateBuf N, constBuf (3 * N) 0, vol'⟩ with ha
    have hA : st.Accepted (numHist c.type.nH c.type.nslip) :=
      ⟨le_refl _, le_refl _, le_refl _, le_refl _, le_refl _, le_refl _, le_refl _, le_refl _⟩
    have hH : ∀ i < N, Holds (numHist c.type.nH c.type.nslip) st a b i := by
      intro i hi
      have hk : ∀ k, k * i + k ≤ k * N := fun k => by
        calc k * i + k = k * (i + 1) := by ring
          _ ≤ k * N := Nat.mul_le_mul_left _ hi
      refine ⟨hk 7, hk 3, ?_, ?_, ?_, ?_, ?_, ?_, fun t ht => ?_⟩
      · show 4 * i + 4 ≤ vol'.len
        rw [hv'.len]; exact hk 4
      · show 1 * i + 1 ≤ _
        rw [hb.eInt]; simpa using hk 1
      · rw [hb.stress]; exact hk 7
      · rw [hb.hist]; exact hk c.type.numHist
      · show 1 * i + 1 ≤ _
        rw [hb.tkelv]; simpa using hk 1
      · rw [hb.sdd]; exact hk 2
      · rw [hb.mtan] at ht; cases ht
    have hO : ∀ i < N, NoOverflow st b i := by
      intro i hi
      have hle : c.type.numHist * i ≤ c.type.numHist * N := Nat.mul_le_mul_left _ hi.le
      have hk : ∀ k, k ≤ 13 → k * i < 2 ^ 32 := fun k hk =>
        lt_of_le_of_lt (Nat.mul_le_mul_right i (hk.trans h13)) (lt_of_le_of_lt hle hN)
      exact ⟨⟨hk 7 (by norm_num), hk 3 (by norm_num), hk 4 (by norm_num), hk 1 (by norm_num), hk 7 (by norm_num),
        lt_of_le_of_lt hle hN, hk 1 (by norm_num), hk 2 (by norm_num)⟩, fun ht => by rw [hb.mtan] at ht; cases ht⟩
    obtain ⟨r1, r2⟩ := C35_independent X M st a b N hA hH hO (List.range N) (List.Perm.refl _)
    have hpi : ∀ i < N, pointInp st a i = pxInp tol := fun i hi => pxInp_point st ⟨rfl, rfl, rfl⟩ (hone i hi)
    have hloop : pxLoop X m N (K + 1) t0 vol b = match batchLoop X M st a (List.range N) b with
        | .ok b' => Out.bind (pxLoop X m N K (t0 + pxDt) vol' b') fun r => .ok ((t0 + pxDt, pxMean N b'.stress) :: r)
        | .fail s _ => .fail s
        | .undef w => .undef w := by
      show Out.bind (pxVols (pxRateBuf N) (List.range N) vol) _ = _
      rw [hvol]
      show (match m.getResponse X _ N b with | .ok b' => _ | .fail s _ => _ | .undef w => _) = _
      rw [hM]
    have hrange : ∀ t : ℕ → ℕ → Mem c.type.nH c.type.nslip, (List.range (K + 1)).map (pxLine N t t0)
        = pxLine N t t0 0 :: (List.range K).map (pxLine N (fun i j => t i (j + 1)) (t0 + pxDt)) := by
      intro t
      rw [List.range_succ_eq_map, List.map_cons, List.map_map]
      congr 1
      apply List.map_congr_left
      intro j _
      simp only [pxLine, Function.comp, pxDt_eq, Nat.succ_eq_add_one]
      push_cast
      congr 1
      ring
    have hfirst : ∀ (t : ℕ → ℕ → Mem c.type.nH c.type.nslip) (b' : BatchMem), (∀ i < N, t i 1 = pointMem st b' i) →
        (t0 + pxDt, pxMean N b'.stress) = pxLine N t t0 0 := by
      intro t b' h
      unfold pxLine
      rw [pxMean_eq, pxDt_eq]
      congr 1
      · push_cast; ring
      · congr 1
        apply Finset.sum_congr rfl
        intro i hi
        rw [zero_add, h i (Finset.mem_range.1 hi)]
        rfl
    rw [hloop]
    constructor
    · intro h
      split at h
      · rename_i b' hb'
        cases hr : pxLoop X m N K (t0 + pxDt) vol' b' with
        | ok r =>
          rw [hr] at h
          simp only [Out.bind] at h
          obtain ⟨t, ht, hrt⟩ := (loop_rows hM X hN K _ vol' b' hv' (loop_arrays _ hb hb') r).1 hr
          have h0 : ∀ i < N, t i 0 = pointMem st b' i := fun i hi => (ht i hi).1
          let t' : ℕ → ℕ → Mem c.type.nH c.type.nslip := fun i j =>
            match j with
            | 0 => pointMem st b i
            | j + 1 => t i j
          refine ⟨t', fun i hi => ⟨rfl, fun j hj => ?_⟩, ?_⟩
          · cases j with
            | zero =>
              show getResponseSngl X M (pxInp tol) (pointMem st b i) = .ok (t i 0)
              rw [h0 i hi, ← hpi i hi]
              exact r2 b' hb' i hi
            | succ j => exact (ht i hi).2 j (by omega)
          · rw [hrange t', ← hfirst t' b' h0, ← (Out.ok.inj h), hrt]
        | fail s => rw [hr] at h; cases h
        | undef w => rw [hr] at h; cases h
      · cases h
      · cases h
    · rintro ⟨t, ht, rfl⟩
      obtain ⟨b', hb'⟩ := r1.2 fun i hi => ⟨t i 1, by
        rw [hpi i hi, ← (ht i hi).1]
        exact (ht i hi).2 0 (by omega)⟩
      have h1 : ∀ i < N, t i 1 = pointMem st b' i := by
        intro i hi
        have e1 := r2 b' hb' i hi
        have e2 := (ht i hi).2 0 (by omega)
        rw [hpi i hi, ← (ht i hi).1, e2] at e1
        exact Res.ok.inj e1
      rw [hb']
      have := (loop_rows hM X hN K (t0 + pxDt) vol' b' hv' (loop_arrays _ hb hb') _).2
        ⟨fun i j => t i (j + 1), fun i hi => ⟨h1 i hi, fun j hj => (ht i hi).2 (j + 1) (by omega)⟩, rfl⟩
      simp only [this, Out.bind]
      rw [hrange t, hfirst t b' h1]

/-! ### The start -/

theorem px_built {S : Solver 1} {c : Case} {pars : List ℝ} {M : Material c.type.nslip c.type.nH} {tol : ℝ}
    (h : BuiltFrom c.type S pars M tol) : ∃ (m m' : MM c.type) (d : List HistEntry),
      (MM.new c.type (Strides.default c.type.numHist)).initFromParams S [] pars [] = (m, .ok ()) ∧
      m.setComplete = .ok m' ∧ Uses m' M tol ∧ m'.getHistInfo = .ok d ∧ m.getHistInfo = .ok d := by
  obtain ⟨rho0, cvav, gamma, ec0, gl, el, kl, info, hpp, hg, he, hk, hG, hE, hK, hB, hI, hO⟩ := h
  have hp' : pars = parVec rho0 cvav tol gamma ec0 gl el kl := hpp
  set st := Strides.default c.type.numHist with hst
  have hi := init_ok S (MM.new c.type st) rho0 cvav tol gamma ec0 gl el kl [] hg he hk (by simp) hG hE hK hB hI
  have hl : (histDesc info c.type.nslip).length = c.type.numHist := by
    rw [histDesc_length, MType.numHist, Ecm.numHist, hI]
  rw [hp', hi]
  refine ⟨_, _, histDesc info c.type.nslip, rfl, rfl, ?_, ?_, ?_⟩
  · intro X a N b
    obtain ⟨mg, mk, me, mo⟩ := M
    simp only at hO
    subst hO
    rfl
  · unfold MM.getHistInfo
    rw [if_neg (by simpa using hl)]
  · unfold MM.getHistInfo
    rw [if_neg (by simpa using hl)]

theorem unitQuat_eq (q : Vec 4) : vecsVNormalize q = unitQuat q := by
  funext i
  unfold vecsVNormalize vecsVsa vecNorm unitQuat
  simp only [sq]
  ring

theorem px_start {S : Solver 1} {c : Case} {pars : List ℝ} {m : MM c.type} {d : List HistEntry}
    (hi : (MM.new c.type (Strides.default c.type.numHist)).initFromParams S [] pars [] = (m, .ok ()))
    (hd : m.getHistInfo = .ok d) (N : ℕ) (q : ℕ → Vec 4) (tk sd : ℕ → ℝ) (i : ℕ) :
    (pointMem (Strides.default c.type.numHist)
      ⟨constBuf N 0, constBuf (7 * N) 0, pxHistBuf c.type.numHist N d q, ⟨N, tk⟩, ⟨2 * N, sd⟩, none⟩ i
        : Mem c.type.nH c.type.nslip)
      = pxBegin c.type.nH c.type.nslip (pars.getD (parCount c - 3) 0) (q i) (tk i) (fun j => sd (2 * i + j)) := by
  have hm : m = ((MM.new c.type (Strides.default c.type.numHist)).initFromParams S [] pars []).1 := by rw [hi]
  have ho : ((MM.new c.type (Strides.default c.type.numHist)).initFromParams S [] pars []).2 = .ok () := by rw [hi]
  rw [hm] at hd
  obtain ⟨a1, a2, a3, a4, a5, -, -, -, -, a6, -⟩ := C41_initial S _ [] pars [] ho d hd
  have a7 := C41_hardness c S _ [] pars [] ho d hd
  have hnH : c.type.nH = 1 := by cases c <;> rfl
  have h13 : 13 ≤ c.type.numHist := by unfold MType.numHist numHist; omega
  have hval : ∀ j, j < c.type.numHist → ¬ (9 ≤ j ∧ j < 13) →
      (pxHistBuf c.type.numHist N d q).val (c.type.numHist * i + j) = (entry d j).init := by
    intro j hj h
    have hmod : (c.type.numHist * i + j) % c.type.numHist = j := by
      rw [Nat.mul_add_mod, Nat.mod_eq_of_lt hj]
    simp only [pxHistBuf, hmod]
    rw [dif_neg h]
    rfl
  have hquat : ∀ k : Fin 4, (pxHistBuf c.type.numHist N d q).val (c.type.numHist * i + (9 + k)) = unitQuat (q i) k := by
    intro k
    have hj : 9 + k.val < c.type.numHist := by omega
    have hmod : (c.type.numHist * i + (9 + k.val)) % c.type.numHist = 9 + k.val := by
      rw [Nat.mul_add_mod, Nat.mod_eq_of_lt hj]
    have hdiv : (c.type.numHist * i + (9 + k.val)) / c.type.numHist = i := by
      rw [Nat.mul_add_div (by omega), Nat.div_eq_of_lt hj, add_zero]
    simp only [pxHistBuf, hmod, hdiv]
    rw [dif_pos (by omega), unitQuat_eq]
    congr 1
    apply Fin.ext
    simp
  unfold pointMem pxBegin
  congr 1
  · rw [← Hist.toArray_ofArray (slice _ _ _ _)]
    congr 1
    simp only [Hist.ofArray, initialArray] at a1 a2 a3 a4 a5 a6
    unfold Hist.ofArray
    have hlt : ∀ j, j < numHist c.type.nH c.type.nslip → j < c.type.numHist := fun j hj => hj
    congr 1
    · exact (hval 0 (by omega) (by omega)).trans a1
    · exact (hval 1 (by omega) (by omega)).trans a2
    · exact (hval 2 (by omega) (by omega)).trans a3
    · exact (hval 3 (by omega) (by omega)).trans a4
    · funext k
      exact (hval (4 + k) (by omega) (by omega)).trans (a5 k)
    · funext k
      exact hquat k
    · funext k
      have hk : k.val = 0 := by have := k.2; omega
      refine (hval (13 + k) (hlt _ (by unfold numHist; omega)) (by omega)).trans ?_
      rw [hk, a7]
    · funext k
      exact (hval (13 + c.type.nH + k) (hlt _ (by unfold numHist; omega)) (by omega)).trans (a6 k)
  · show tk (1 * i) = tk i
    rw [one_mul]

/-! ### The test -/

/-- **C110, what is printed.** For parameters of any of the models, any number of crystals and of steps: the program comes to
    its end exactly when no quaternion is zero and every crystal can be pulled alone through all steps; it then prints the
    time and the mean of the axial stresses of these single crystals. -/
theorem C110_printed {S : Solver 1} {c : Case} {pars : List ℝ} {M : Material c.type.nslip c.type.nH} {tol : ℝ}
    (h : BuiltFrom c.type S pars M tol) (X : Ext) (N K : ℕ) (hN0 : 0 < N) (hN : c.type.numHist * N < 2 ^ 32)
    (q : ℕ → Vec 4) (tk sd : ℕ → ℝ) (out : List (ℝ × ℝ)) :
    pxRun c S pars X N K q tk sd = .ok out ↔ (∀ i < N, q i ≠ 0) ∧
      ∃ t : ℕ → ℕ → Mem c.type.nH c.type.nslip,
        (∀ i < N, Pulled X M tol K (pxBegin c.type.nH c.type.nslip (pars.getD (parCount c - 3) 0) (q i) (tk i)
          fun j => sd (2 * i + j)) (t i)) ∧
        out = (List.range K).map (pxLine N t 0) := by
  obtain ⟨m, m', d, h1, h2, h3, h4, h5⟩ := px_built h
  have hrun : pxRun c S pars X N K q tk sd = if ∃ i < N, q i = 0 then .undef "division by zero"
      else pxLoop X m' N K 0 (constBuf (4 * N) 1)
        ⟨constBuf N 0, constBuf (7 * N) 0, pxHistBuf c.type.numHist N d q, ⟨N, tk⟩, ⟨2 * N, sd⟩, none⟩ := by
    unfold pxRun
    rw [h1]
    simp only [h2, h4, Out.bind, if_neg hN0.ne']
  rw [hrun]
  by_cases hq : ∃ i < N, q i = 0
  · rw [if_pos hq]
    obtain ⟨i, hi, hq⟩ := hq
    exact ⟨fun h => (by cases h), fun h => absurd hq (h.1 i hi)⟩
  · rw [if_neg hq]
    push Not at hq
    rw [loop_rows h3 X hN K 0 _ _ ⟨rfl, fun _ => rfl⟩ ⟨rfl, rfl, rfl, rfl, rfl, rfl⟩]
    simp only [px_start h1 h5]
    exact ⟨fun h => ⟨hq, h⟩, fun h => h.2⟩

/-- the time and the moduli an update finds in memory are not used -/
theorem pulled_junk {S : Solver 1} {c : Case} {pars : List ℝ} {M : Material c.type.nslip c.type.nH} {tol : ℝ}
    (h : BuiltFrom c.type S pars M tol) {X : Ext} {K : ℕ} {h0 : ℝ} {q : Vec 4} {T T' : ℝ} {sd sd' : Vec 2}
    {t : ℕ → Mem c.type.nH c.type.nslip} (ht : Pulled X M tol K (pxBegin c.type.nH c.type.nslip h0 q T sd) t) :
    ∃ t', Pulled X M tol K (pxBegin c.type.nH c.type.nslip h0 q T' sd') t' ∧ ∀ j < K, t' (j + 1) = t (j + 1) := by
  obtain ⟨m, m', d, h1, h2, h3, h4, h5⟩ := px_built h
  have hm : m = ((MM.new c.type (Strides.default c.type.numHist)).initFromParams S [] pars []).1 := by rw [h1]
  rw [hm] at h5
  refine ⟨fun j => match j with
    | 0 => pxBegin c.type.nH c.type.nslip h0 q T' sd'
    | j + 1 => t (j + 1), ⟨rfl, fun j hj => ?_⟩, fun j _ => rfl⟩
  cases j with
  | zero =>
    have e := ht.2 0 hj
    rw [ht.1] at e
    have hs := C108_restart c S _ [] pars [] (by rw [h1]) d h5 X M (pxInp tol)
      (pxBegin c.type.nH c.type.nslip h0 q T sd) (pxBegin c.type.nH c.type.nslip h0 q T' sd') ⟨rfl, rfl, rfl, fun _ _ => rfl⟩
    rw [e] at hs
    show getResponseSngl X M (pxInp tol) (pxBegin c.type.nH c.type.nslip h0 q T' sd') = .ok (t 1)
    cases hb : getResponseSngl X M (pxInp tol) (pxBegin c.type.nH c.type.nslip h0 q T' sd') with
    | ok r => rw [hb] at hs; exact congrArg Res.ok (Eq.symm hs)
    | fail s r => rw [hb] at hs; exact hs.elim
    | undef w => rw [hb] at hs; exact hs.elim
  | succ j => exact ht.2 (j + 1) hj

/-- **C110, order and memory.** The crystals can be taken in another order, and the arrays that are not initialised can hold
    anything: the same lines are printed. -/
theorem C110_order {S : Solver 1} {c : Case} {pars : List ℝ} {M : Material c.type.nslip c.type.nH} {tol : ℝ}
    (h : BuiltFrom c.type S pars M tol) (X : Ext) (N K : ℕ) (hN0 : 0 < N) (hN : c.type.numHist * N < 2 ^ 32)
    (q : ℕ → Vec 4) (σ : Equiv.Perm ℕ) (hσ : ∀ i, σ i < N ↔ i < N) (tk sd tk' sd' : ℕ → ℝ) (out : List (ℝ × ℝ))
    (ho : pxRun c S pars X N K q tk sd = .ok out) : pxRun c S pars X N K (fun i => q (σ i)) tk' sd' = .ok out := by
  obtain ⟨hq, t, ht, rfl⟩ := (C110_printed h X N K hN0 hN q tk sd out).1 ho
  have hex : ∀ i, ∃ t' : ℕ → Mem c.type.nH c.type.nslip, i < N →
      Pulled X M tol K (pxBegin c.type.nH c.type.nslip (pars.getD (parCount c - 3) 0) (q (σ i)) (tk' i)
        fun j => sd' (2 * i + j)) t' ∧ ∀ j < K, t' (j + 1) = t (σ i) (j + 1) := by
    intro i
    by_cases hi : i < N
    · obtain ⟨t', h1⟩ := pulled_junk h (T' := tk' i) (sd' := fun j => sd' (2 * i + j)) (ht (σ i) ((hσ i).2 hi))
      exact ⟨t', fun _ => h1⟩
    · exact ⟨t 0, fun h => absurd h hi⟩
  choose t' ht' using hex
  refine (C110_printed h X N K hN0 hN _ tk' sd' _).2 ⟨fun i hi => hq _ ((hσ i).2 hi), t', fun i hi => (ht' i hi).1, ?_⟩
  apply List.map_congr_left
  intro j hj
  unfold pxLine
  congr 2
  have e : ∑ i ∈ Finset.range N, (t' i (j + 1)).stress 2 = ∑ i ∈ Finset.range N, (t (σ i) (j + 1)).stress 2 :=
    Finset.sum_congr rfl fun i hi => by rw [(ht' i (Finset.mem_range.1 hi)).2 j (List.mem_range.1 hj)]
  rw [e]
  symm
  refine Finset.sum_nbij' σ σ.symm ?_ ?_ ?_ ?_ ?_
  · intro i hi; simpa [hσ] using hi
  · intro i hi
    have := hσ (σ.symm i)
    simp only [Equiv.apply_symm_apply] at this
    simpa [← this] using hi
  · intro i _; simp
  · intro i _; simp
  · intro i _; rfl

/-- **C110, a zero quaternion.** -/
theorem C110_zero {S : Solver 1} {c : Case} {pars : List ℝ} {M : Material c.type.nslip c.type.nH} {tol : ℝ}
    (h : BuiltFrom c.type S pars M tol) (X : Ext) (N K : ℕ) (q : ℕ → Vec 4) (tk sd : ℕ → ℝ) {i : ℕ} (hi : i < N)
    (hq : q i = 0) : pxRun c S pars X N K q tk sd = .undef "division by zero" := by
  obtain ⟨m, m', d, h1, h2, h3, h4, h5⟩ := px_built h
  unfold pxRun
  rw [h1]
  simp only [h2, h4, Out.bind, if_neg (show N ≠ 0 by omega)]
  rw [if_pos ⟨i, hi, hq⟩]

/-! ### With power-law slip the test comes to its end -/

/-- the material of the test, KIN_TYPE 0 -/
noncomputable def pxMatA (S : Solver 1) : Material 12 1 where
  geom := slipPQ fccM fccS
  kin := (testVoce false).kin S 12
  el := .cubic 3 1 1
  eos := { isothermal := false, rho0 := 3, bulkMod := (Elast.cubic 3 1 1).kBulkMod, cvav := 2e-5, gamma := 1.7
           ec0 := -(2e-5) * 300 }

/-- the material of the test, KIN_TYPE 1 -/
noncomputable def pxMatB (S : Solver 1) : Material 12 1 where
  geom := slipPQ fccM fccS
  kin := testKM.kin S 12
  el := .cubic 3 1 1
  eos := { isothermal := false, rho0 := 3, bulkMod := (Elast.cubic 3 1 1).kBulkMod, cvav := 2e-5, gamma := 1.7
           ec0 := -(2e-5) * 300 }

theorem px_bulk : 0 < (Elast.cubic 3 1 1).kBulkMod := by
  unfold Elast.kBulkMod
  norm_num

theorem pxParsVoce_eq : pxParsVoce = vocePars 3 2e-5 1e-10 3 1 1 (testVoce false) 1.7 (-(2e-5) * 300) := by
  simp [pxParsVoce, vocePars, Voce.getParams, testVoce]
  norm_num

/-- the parameters of the test are accepted and give this material -/
theorem C110_material_voce (S : Solver 1) : BuiltFrom Case.fccA.type S pxParsVoce (pxMatA S) 1e-10 := by
  rw [pxParsVoce_eq]
  refine ⟨3, 2e-5, 1.7, -(2e-5) * 300, [], [3, 1, 1], (testVoce false).getParams, (testVoce false).histInfo, rfl, rfl, rfl,
    rfl, C16_fcc.2, rfl, ?_, px_bulk, rfl, rfl⟩
  show kinVoce false 12 S (testVoce false).getParams = _
  unfold kinVoce
  have : Voce.setParams false (testVoce false).getParams = .ok (testVoce false) := by
    have := Voce.setParams_lin (testVoce false).mu (testVoce false).xm (testVoce false).gamW (testVoce false).h0
      (testVoce false).tausi (testVoce false).taus0 (testVoce false).xms (testVoce false).gamss0 (testVoce false).hdnInit
    unfold Voce.getParams
    rw [this]
    rfl
  rw [this]
  rfl

theorem pxParsKM_eq : pxParsKM = [3, 2e-5, 1e-10, 3, 1, 1] ++ testKM.getParams ++ [1.7, -(2e-5) * 300] := by
  simp [pxParsKM, KMBalD.getParams, testKM]
  norm_num

/-- the parameters of the test are accepted and give this material -/
theorem C110_material_km (S : Solver 1) : BuiltFrom Case.fccB.type S pxParsKM (pxMatB S) 1e-10 := by
  rw [pxParsKM_eq]
  have hset : KMBalD.setParams false false false false 1 testKM.getParams = .ok testKM := by
    have := KMBalD.setParams_getParams testKM
    have f1 : testKM.withGA = false := rfl
    have f2 : testKM.pOne = false := rfl
    have f3 : testKM.qOne = false := rfl
    have f4 : testKM.perSS = false := rfl
    rw [f1, f2, f3, f4] at this
    rw [this]
    simp
  refine ⟨3, 2e-5, 1.7, -(2e-5) * 300, [], [3, 1, 1], testKM.getParams, testKM.histInfo, rfl, rfl, rfl, ?_, C16_fcc.2, rfl,
    ?_, px_bulk, rfl, rfl⟩
  · simp [KMBalD.getParams, KMBalD.nParams, Case.type]
  · show kinKM false false false false 1 12 S testKM.getParams = _
    unfold kinKM
    rw [hset]
    rfl

theorem testVoce_steady : Steady 12 (testVoce false) 40 where
  linear := rfl
  xm := by norm_num [testVoce]
  gamW := by norm_num [testVoce]
  h0 := by norm_num [testVoce]
  gamss0 := by norm_num [testVoce]
  one := by norm_num
  sat := by
    intro γ h0 h1
    have e1 : (testVoce false).xms = 1 / (20 : ℕ) := by norm_num [testVoce]
    have e2 : (testVoce false).gamss0 = 1 / 10 ^ 6 := rfl
    have e3 : (testVoce false).taus0 = 4 / 1000 := by norm_num [testVoce]
    have e4 : (testVoce false).gamW = 1 := rfl
    rw [e4] at h1
    push_cast at h1
    have hp : ((10 : ℝ) ^ 80) ^ (1 / (20 : ℕ) : ℝ) = 10 ^ 4 := by
      rw [show (10 : ℝ) ^ 80 = (10 ^ 4) ^ 20 by norm_num, one_div]
      exact Real.pow_rpow_inv_natCast (by norm_num) (by norm_num)
    have hb : (γ / (1 / 10 ^ 6)) ^ (1 / (20 : ℕ) : ℝ) ≤ 10 ^ 4 := by
      rw [← hp]
      refine Real.rpow_le_rpow (by positivity) ?_ (by norm_num)
      rw [div_div_eq_mul_div, div_one]
      linarith
    unfold voceSat
    rw [e1, e2, e3]
    split
    · linarith
    · norm_num

theorem px_frob (tol : ℝ) : frob (devOfSvecP (pxInp tol).d) ≤ 2 / 10 ^ 6 ∧ IsDev (devOfSvecP (pxInp tol).d) := by
  constructor
  · unfold frob
    rw [Real.sqrt_le_left (by norm_num)]
    simp [ddot, Fin.sum_univ_three, devOfSvecP, pxInp, pxDir]
    norm_num
  · rw [isDev_iff]
    simp [devOfSvecP, pxInp, pxDir]
    norm_num

theorem unitQuat_ne {q : Vec 4} (hq : q ≠ 0) : unitQuat q ≠ 0 := by
  intro h
  apply hq
  have hs : 0 < ∑ j, q j ^ 2 := by
    obtain ⟨i, hi⟩ := Function.ne_iff.1 hq
    exact lt_of_lt_of_le (pow_pos (abs_pos.2 hi) 2) (by
      rw [sq_abs]
      exact Finset.single_le_sum (f := fun j => q j ^ 2) (fun j _ => sq_nonneg _) (Finset.mem_univ i))
  funext i
  have := congrFun h i
  unfold unitQuat at this
  rcases div_eq_zero_iff.1 this with h | h
  · exact h
  · exact absurd h (Real.sqrt_pos.2 hs).ne'

theorem voce_pulled (S : Solver 1) (hS : Finds S) (X : Ext) (hX : Finds X.solver) {q : Vec 4} (hq : q ≠ 0) (T : ℝ)
    (sd : Vec 2) : ∃ t, Pulled X (pxMatA S) 1e-10 100 (pxBegin 1 12 (testVoce false).hdnInit q T sd) t := by
  have hM : PowerCubic (pxMatA S) (testVoce false) S 3 1 1 :=
    ⟨⟨fccM, fccS, rfl, C16_fcc.1⟩, rfl, rfl, by norm_num, by norm_num [pxMatA]⟩
  have hκ : stiff 3 1 1 = 2 := by unfold stiff; norm_num
  have hsq : Real.sqrt 2 ≤ 3 / 2 := by rw [Real.sqrt_le_left (by norm_num)]; norm_num
  have hsq0 := Real.sqrt_nonneg 2
  have hw : (testVoce false).gamW = 1 := rfl
  have hdt : (pxInp 1e-10).dt = 2000 := rfl
  have ht : (pxInp 1e-10).tol = 1e-10 := rfl
  have hv : (pxInp 1e-10).vr 1 = 1 := rfl
  obtain ⟨hf, hdev⟩ := px_frob 1e-10
  have hf0 : 0 ≤ frob (devOfSvecP (pxInp 1e-10).d) := Real.sqrt_nonneg _
  set sup := stepSupply (stiff 3 1 1) (testVoce false).gamW (pxInp 1e-10) with hsup
  have hs : 0 ≤ sup ∧ sup ≤ 1 := by
    rw [hsup]
    unfold stepSupply
    rw [hκ, hw, hdt, ht, hv, Real.one_rpow]
    generalize frob (devOfSvecP (pxInp 1e-10).d) = f at hf hf0
    have h3 : f + 1e-10 * (1 + f + 1 / 10 ^ 6 / 2000) ≤ 1 / 10 ^ 5 := by norm_num at hf ⊢; linarith
    generalize Real.sqrt 2 = σ at hsq hsq0
    refine ⟨by positivity, ?_⟩
    calc 2000 * 1 * (σ * (f + 1e-10 * (1 + f + 1 / 10 ^ 6 / 2000))) ≤ 2000 * 1 * (3 / 2 * (1 / 10 ^ 5)) := by gcongr
      _ ≤ 1 := by norm_num
  have hxm : (1 : ℝ) ≤ (10 ^ 60 : ℝ) ^ (testVoce false).xm := Real.one_le_rpow (by norm_num) (by norm_num [testVoce])
  have hload : ∀ j : ℕ, j < 100 → Loads 12 (testVoce false) (stiff 3 1 1) (1e-3 / 2) (0 + j * sup) (pxInp 1e-10) := by
    intro j hj
    have hjR : (j : ℝ) ≤ 100 := by exact_mod_cast hj.le
    refine ⟨by rw [hdt]; norm_num, by rw [hv]; norm_num, hdev, ?_, ?_⟩
    · unfold imposed
      rw [hκ, hdt, hv, Real.one_rpow, hw]
      have hE : (j : ℝ) * sup ≤ 100 * 1 := mul_le_mul hjR hs.2 hs.1 (by norm_num)
      have hE0 : 0 ≤ (j : ℝ) * sup := mul_nonneg (Nat.cast_nonneg _) hs.1
      generalize (j : ℝ) * sup = E at hE hE0
      generalize frob (devOfSvecP (pxInp 1e-10).d) = f at hf hf0
      generalize Real.sqrt 2 = σ at hsq hsq0
      generalize (10 ^ 60 : ℝ) ^ (testVoce false).xm = z at hxm
      calc (0 + E + 2000 * 1 * (σ * f)) ^ 2 ≤ (0 + 100 * 1 + 2000 * 1 * (3 / 2 * (2 / 10 ^ 6))) ^ 2 := by gcongr
        _ ≤ 4 * (2000 * 1 ^ 2) * (1 * (1e-3 / 2) * (10 ^ 60 * 1)) := by norm_num
        _ ≤ 4 * (2000 * 1 ^ 2) * (z * (1e-3 / 2) * (10 ^ 60 * 1)) := by gcongr
    · have hl : len (pxInp 1e-10).w = 0 := by
        show Real.sqrt (dot 0 0) = 0
        simp [dot]
      rw [hl, ht]
      norm_num
  let m0 := pxBegin 1 12 (testVoce false).hdnInit q T sd
  let next : Mem 1 12 → Mem 1 12 := fun m =>
    match getResponseSngl X (pxMatA S) (pxInp 1e-10) m with
    | .ok m' => m'
    | _ => m
  let t : ℕ → Mem 1 12 := fun j => next^[j] m0
  have hstep : ∀ j, t (j + 1) = next (t j) := fun j => Function.iterate_succ_apply' next j m0
  have hm0 : histOf m0 = { shrateEff := 0, shrEff := 0, flowStr := 0, nFEval := 0, e := 0, q := unitQuat q
                           h := fun _ => (testVoce false).hdnInit, gdot := 0 } := Hist.ofArray_toArray _
  have hi : (testVoce false).hdnInit = 1e-3 := by norm_num [testVoce]
  have key : ∀ j, j < 100 → (t j).mtan = none → InRange (testVoce false) (pxMatA S).el (lowAt 1e-3 40 j) (highAt 40 j)
      (0 + j * sup) (histOf (t j)) → ∃ m', getResponseSngl X (pxMatA S) (pxInp 1e-10) (t j) = .ok m' ∧ t (j + 1) = m' ∧
        m'.mtan = none ∧ InRange (testVoce false) (pxMatA S).el (lowAt 1e-3 40 (j + 1)) (highAt 40 (j + 1))
          (0 + (j + 1 : ℕ) * sup) (histOf m') := by
    intro j hj hmt hr
    obtain ⟨m', h1, h2⟩ := C82_next hS hM testVoce_steady (hm := 1e-3) (by norm_num) (by norm_num [testVoce]) (K := 100)
      (by norm_num) (by norm_num) j hj _ X hX (pxInp 1e-10) (hload j hj) (t j) hr (Or.inl hmt)
    refine ⟨m', h1, ?_, ?_, h2.mono le_rfl le_rfl (by push_cast; linarith)⟩
    · rw [hstep]
      show (match getResponseSngl X (pxMatA S) (pxInp 1e-10) (t j) with | .ok m' => m' | _ => t j) = m'
      rw [h1]
    · have := getResponseSngl_mtan.1 m' h1
      rw [hmt] at this
      simpa using this
  have all : ∀ j, j ≤ 100 → (t j).mtan = none ∧ InRange (testVoce false) (pxMatA S).el (lowAt 1e-3 40 j) (highAt 40 j)
      (0 + j * sup) (histOf (t j)) := by
    intro j
    induction j with
    | zero =>
      intro _
      refine ⟨rfl, ?_⟩
      show InRange _ _ _ _ _ (histOf m0)
      rw [hm0]
      refine ⟨unitQuat_ne hq, ?_, ?_, ?_, ?_⟩
      · unfold lowAt; rw [hi]; norm_num
      · unfold highAt; rw [hi]; norm_num
      · rw [energyNorm_eq]
        unfold wNorm
        simp
      · simp only [Pi.zero_apply, abs_zero, Finset.sum_const_zero]
        rw [hw]
        positivity
    | succ j ih =>
      intro hj
      obtain ⟨h1, h2⟩ := ih (by omega)
      obtain ⟨m', -, h3, h4, h5⟩ := key j (by omega) h1 h2
      rw [h3]
      exact ⟨h4, h5⟩
  refine ⟨t, rfl, fun j hj => ?_⟩
  obtain ⟨h1, h2⟩ := all j hj.le
  obtain ⟨m', h3, h4, -⟩ := key j hj h1 h2
  rw [h3, h4]

/-- **C110, the test reaches its end.** With power-law slip (KIN_TYPE 0), solvers that find the solutions there are, and any
    quaternions other than zero, all hundred steps of all sixteen crystals succeed and a hundred lines are printed. -/
theorem C110_ends (S : Solver 1) (hS : Finds S) (X : Ext) (hX : Finds X.solver) (q : ℕ → Vec 4) (hq : ∀ i < 16, q i ≠ 0)
    (tk sd : ℕ → ℝ) : ∃ out, pxVoce S X q tk sd = .ok out ∧ out.length = 100 := by
  have hp : pxParsVoce.getD (parCount .fccA - 3) 0 = (testVoce false).hdnInit := by
    norm_num [pxParsVoce, parCount, testVoce]
  have hex : ∀ i, ∃ t, i < 16 → Pulled X (pxMatA S) 1e-10 100
      (pxBegin 1 12 (pxParsVoce.getD (parCount .fccA - 3) 0) (q i) (tk i) fun j => sd (2 * i + j)) t := by
    intro i
    by_cases hi : i < 16
    · rw [hp]
      obtain ⟨t, ht⟩ := voce_pulled S hS X hX (hq i hi) (tk i) fun j => sd (2 * i + j)
      exact ⟨t, fun _ => ht⟩
    · exact ⟨fun _ => pxBegin 1 12 0 0 0 0, fun h => absurd h hi⟩
  choose t ht using hex
  refine ⟨_, (C110_printed (C110_material_voce S) X 16 100 (by norm_num)
    (by norm_num [Case.type, MType.numHist, numHist]) q tk sd _).2 ⟨hq, t, fun i hi => ht i hi, rfl⟩, by simp⟩

/-- the hypotheses can be met -/
example : ∃ out, pxVoce (idealSolver 1) ⟨idealSolver 8, fun _ B => some B, 1⟩ (fun _ => ![1, 2, 3, 4]) 0 0 = .ok out ∧
    out.length = 100 :=
  C110_ends _ (idealSolver_finds 1) _ (idealSolver_finds 8) _ (fun _ _ h => by simpa using congrFun h 0) _ _

theorem swap_lt {i j N : ℕ} (hi : i < N) (hj : j < N) (k : ℕ) : Equiv.swap i j k < N ↔ k < N := by
  by_cases h1 : k = i
  · subst h1; simp [hi, hj]
  · by_cases h2 : k = j
    · subst h2; simp [hi, hj]
    · rw [Equiv.swap_apply_of_ne_of_ne h1 h2]

/-- two crystals exchanged -/
example : ∃ out, pxVoce (idealSolver 1) ⟨idealSolver 8, fun _ B => some B, 1⟩ (fun i => ![1, i, 3, 4]) 0 0 = .ok out ∧
    pxVoce (idealSolver 1) ⟨idealSolver 8, fun _ B => some B, 1⟩ (fun i => ![1, (Equiv.swap 2 7 i : ℕ), 3, 4]) 5 6 = .ok out := by
  obtain ⟨out, h, -⟩ := C110_ends _ (idealSolver_finds 1) ⟨idealSolver 8, fun _ B => some B, 1⟩ (idealSolver_finds 8)
    (fun i => ![1, i, 3, 4]) (fun _ _ h => by simpa using congrFun h 0) 0 0
  exact ⟨out, h, C110_order (C110_material_voce _) _ 16 100 (by norm_num) (by norm_num [Case.type, MType.numHist, numHist])
    _ (Equiv.swap 2 7) (swap_lt (by norm_num) (by norm_num)) _ _ _ _ _ h⟩

/-! ### What the tolerance leaves open -/

theorem pxMatB_probe : pxMatB (probe 1) = testMatB := by
  unfold pxMatB testMatB testEos Elast.kBulkMod
  congr 1
  congr 1 <;> norm_num

/-- **C110, refuted: the printed means are determined to ten digits.** With dislocation kinetics (KIN_TYPE 1) and the
    tolerance 1e-10 of the test, one step prints, for crystals of one orientation, any mean stress from 0.00392 to 0.004,
    depending on the solver, with a solver that keeps its contract. -/
theorem C110_refuted_digits (N : ℕ) (hN0 : 0 < N) (hN : 26 * N < 2 ^ 32) (q : Vec 4) (hq : q ≠ 0) (tk sd : ℕ → ℝ) (σ : ℝ)
    (h1 : 392 / 10 ^ 5 ≤ σ) (h2 : σ ≤ 4 / 1000) :
    ∃ X : Ext, Finds X.solver ∧ pxRun .fccB (probe 1) pxParsKM X N 1 (fun _ => q) tk sd = .ok [(2000, σ)] := by
  obtain ⟨X, m', hX, hm, hs⟩ := (C92_refuted_px (unitQuat q) (unitQuat_ne hq) 0 0).2 σ h1 h2
  have hp : pxParsKM.getD (parCount .fccB - 3) 0 = testKM.hdnInit := by
    norm_num [pxParsKM, parCount, testKM]
  have he : (1e-10 : ℝ) = 1 / 10 ^ 10 := by norm_num
  refine ⟨X, hX, (C110_printed (C110_material_km (probe 1)) X N 1 hN0 hN _ tk sd _).2 ⟨fun _ _ => hq, ?_⟩⟩
  have hP : Pulled X (pxMatB (probe 1)) 1e-10 1 (pxBegin 1 12 testKM.hdnInit q 0 0) (fun j => if j = 0 then
      pxBegin 1 12 testKM.hdnInit q 0 0 else m') := by
    refine ⟨by simp, fun j hj => ?_⟩
    have hj0 : j = 0 := by omega
    subst hj0
    rw [pxMatB_probe, he]
    show getResponseSngl X testMatB (pxInp (1 / 10 ^ 10)) (pxMem (unitQuat q) 0 0) = .ok m'
    exact hm
  have hex : ∀ i : ℕ, ∃ t, Pulled X (pxMatB (probe 1)) 1e-10 1 (pxBegin 1 12 testKM.hdnInit q (tk i)
      fun j => sd (2 * i + j)) t ∧ ∀ j < 1, t (j + 1) = m' := by
    intro i
    obtain ⟨t, ht, hj⟩ := pulled_junk (C110_material_km (probe 1)) (T' := tk i) (sd' := fun j => sd (2 * i + j)) hP
    exact ⟨t, ht, fun j hj' => (hj j hj').trans (if_neg (by omega))⟩
  choose t ht hj using hex
  refine ⟨t, fun i _ => by rw [hp]; exact ht i, ?_⟩
  simp only [List.range_succ, List.range_zero, List.nil_append, List.map_cons, List.map_nil, pxLine]
  have hsum : ∑ i ∈ Finset.range N, (t i (0 + 1)).stress 2 = N * σ := by
    rw [Finset.sum_congr rfl fun i _ => by rw [hj i 0 (by norm_num), hs]]
    simp
  rw [hsum, mul_div_cancel_left₀ _ (by exact_mod_cast hN0.ne')]
  norm_num

/-- two runs of the one-step test print means that differ by 8e-5 -/
example : ∃ X Y : Ext, Finds X.solver ∧ Finds Y.solver ∧
    pxRun .fccB (probe 1) pxParsKM X 16 1 (fun _ => ![1, 0, 0, 0]) 0 0 = .ok [(2000, 392 / 10 ^ 5)] ∧
    pxRun .fccB (probe 1) pxParsKM Y 16 1 (fun _ => ![1, 0, 0, 0]) 0 0 = .ok [(2000, 4 / 1000)] := by
  have hq : (![1, 0, 0, 0] : Vec 4) ≠ 0 := fun h => by simpa using congrFun h 0
  obtain ⟨X, h1, h2⟩ := C110_refuted_digits 16 (by norm_num) (by norm_num) ![1, 0, 0, 0] hq 0 0 (392 / 10 ^ 5) le_rfl (by norm_num)
  obtain ⟨Y, h3, h4⟩ := C110_refuted_digits 16 (by norm_num) (by norm_num) ![1, 0, 0, 0] hq 0 0 (4 / 1000) (by norm_num) le_rfl
  exact ⟨X, Y, h1, h3, h2, h4⟩

end Ecm.Props
