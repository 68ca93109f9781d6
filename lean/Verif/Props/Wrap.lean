/-
  C39, C41, C42, C43: the model class: acceptance of parameters, description of the history, life
  cycle, and selection by name.
-/
import Verif.Lemmas.Wrap
import Verif.Props.SlipGeom
import Verif.Lemmas.Example

namespace Ecm.Props
open Ecm Spec Classical

/-- number of parameters of each model (documentation: README and test inputs) -/
def parCount : Case → ℕ
  | .fccA => 17 | .fccAH => 18 | .fccB => 24 | .bccA => 24 | .hcpA => 97 | .bccB => 17 | .bccBH => 18

theorem parCount_eq (c : Case) : c.type.nParams = parCount c := by cases c <;> rfl

/-- an outcome is a reported failure -/
def Fails {α : Type*} (x : Out α) : Prop := ∃ msg, x = .fail msg
/-- an outcome is undefined behaviour (here: a failed assert) -/
def Undef {α : Type*} (x : Out α) : Prop := ∃ msg, x = .undef msg

/-- C39: with a wrong number of parameters, any option, or more than one string, initialisation
    fails -/
theorem C39_counts (c : Case) (S : Solver 1) (m : MM c.type) (opts : List ℤ) (pars : List ℝ)
    (strs : List String) (h : pars.length ≠ parCount c ∨ opts ≠ [] ∨ 1 < strs.length) :
    Fails (m.initFromParams S opts pars strs).2 := by
  rw [← parCount_eq] at h
  obtain ⟨msg, e⟩ := init_wrong_counts S m opts pars strs (by
    rcases h with h | h | h
    · exact Or.inl h
    · exact Or.inr (Or.inl (by simpa [List.length_eq_zero_iff] using h))
    · exact Or.inr (Or.inr h))
  exact ⟨msg, by rw [e]⟩

/-- C39 (cubic models): with the right counts, initialisation succeeds exactly when the bulk modulus
    (c11 + 2 c12) / 3 is positive, and fails otherwise -/
theorem C39_cubic (c : Case) (hc : c ≠ .hcpA) (S : Solver 1) (m : MM c.type) (pars : List ℝ)
    (strs : List String) (h : pars.length = parCount c) (hs : strs.length ≤ 1) :
    (0 < (pars.getD 3 0 + 2 * pars.getD 4 0) / 3 →
      (m.initFromParams S [] pars strs).2 = .ok ()) ∧
    ((pars.getD 3 0 + 2 * pars.getD 4 0) / 3 ≤ 0 →
      Fails (m.initFromParams S [] pars strs).2) := by
  rw [← parCount_eq] at h
  obtain ⟨rho0, cvav, tol, gamma, ec0, gl, el, kl, rfl, hg, he, hk⟩ := exists_parVec (T := c.type) pars h
  rw [init_outcome S m rho0 cvav tol gamma ec0 gl el kl strs hg he hk hs]
  have hel : c.type.elN = 3 := by cases c <;> first | rfl | exact absurd rfl hc
  have hgn : c.type.geomN = 0 := by cases c <;> first | rfl | exact absurd rfl hc
  have hE : c.type.setEl = Elast.setCubic := by cases c <;> first | rfl | exact absurd rfl hc
  have hH : c.type.nH = 1 := by cases c <;> rfl
  have hG : ∃ g, c.type.setGeom gl = .ok g := by
    cases c
    · exact ⟨_, C16_fcc.2⟩
    · exact ⟨_, C16_fcc.2⟩
    · exact ⟨_, C16_fcc.2⟩
    · exact ⟨_, C16_bcc.1.2⟩
    · exact absurd rfl hc
    · exact ⟨_, C16_bcc.1.2⟩
    · exact ⟨_, C16_bcc.1.2⟩
  have hK : ∃ k, c.type.setKin S kl = .ok k ∧ k.2.length = 1 := by
    cases c
    · exact kinVoce_lin_ok S 12 kl hk
    · exact kinVoce_nonlin_ok S 12 kl hk
    · exact kinKM_ok S 12 false false 1 kl hk
    · exact kinKM_ok S 12 true false 1 kl hk
    · exact absurd rfl hc
    · exact kinVoce_lin_ok S 12 kl hk
    · exact kinVoce_nonlin_ok S 12 kl hk
  obtain ⟨g, hG⟩ := hG
  obtain ⟨k, hK, hi⟩ := hK
  rw [hel] at he
  rw [hgn] at hg
  obtain ⟨c11, c12, c44, rfl⟩ := List.length_eq_three.1 he
  have hgl : gl = [] := List.length_eq_zero_iff.1 hg
  subst hgl
  have e3 : (parVec rho0 cvav tol gamma ec0 [] [c11, c12, c44] kl).getD 3 0 = c11 := rfl
  have e4 : (parVec rho0 cvav tol gamma ec0 [] [c11, c12, c44] kl).getD 4 0 = c12 := rfl
  have hi' : k.2.length = c.type.nH := hi.trans hH.symm
  rw [e3, e4, hG, hE, Elast.setCubic_eq, hK]
  simp only [Out.bind]
  constructor
  · intro hb
    rw [getBulkMod_ok (by simp only [Elast.kBulkMod]; linarith)]
    simp [hi']
  · intro hb
    rw [getBulkMod_fail (by simp only [Elast.kBulkMod]; linarith)]
    exact ⟨_, rfl⟩

/-- C39 (hexagonal model): with the right counts, initialisation fails when the axial ratio does not
    give orthogonal slip systems or the bulk modulus is not positive; it stops at an assert when one
    of the two exponents that the template fixes is not one; otherwise it succeeds -/
theorem C39_hcp (S : Solver 1) (m : MM Case.hcpA.type) (pars : List ℝ) (strs : List String)
    (h : pars.length = 97) (hs : strs.length ≤ 1) :
    let r := pars.getD 3 0
    let bulk := (2 * pars.getD 4 0 + 2 * pars.getD 5 0 + 4 * pars.getD 6 0 + pars.getD 7 0) / 9
    let unitExp := pars.getD 37 0 = 1 ∧ pars.getD 38 0 = 1
    let out := (m.initFromParams S [] pars strs).2
    (¬ RatioOk r → Fails out) ∧
    (RatioOk r → ¬ unitExp → Undef out) ∧
    (RatioOk r → unitExp → bulk ≤ 0 → Fails out) ∧
    (RatioOk r → unitExp → 0 < bulk → out = .ok ()) := by
  intro r bulk unitExp out
  obtain ⟨rho0, cvav, tol, gamma, ec0, gl, el, kl, rfl, hg, he, hk⟩ :=
    exists_parVec (T := Case.hcpA.type) pars h
  have ho := init_outcome S m rho0 cvav tol gamma ec0 gl el kl strs hg he hk hs
  change gl.length = 1 at hg
  change el.length = 6 at he
  change kl.length = KMBalD.nParams 24 at hk
  obtain ⟨r', rfl⟩ := List.length_eq_one_iff.1 hg
  obtain ⟨c11, el, rfl, h1⟩ := exists_cons el (by omega)
  obtain ⟨c12, el, rfl, h1⟩ := exists_cons el (by simp at he; omega)
  obtain ⟨c13, el, rfl, h1⟩ := exists_cons el (by simp at he; omega)
  obtain ⟨c33, c44, gg, rfl⟩ := List.length_eq_three.1 (show el.length = 3 by simp at he; omega)
  obtain ⟨k, rfl, hga, hp1, hq1, hss⟩ := KMBalD.exists_getParams true true true true 24 kl hk
  have er : r = r' := rfl
  have eb : bulk = (2 * c11 + 2 * c12 + 4 * c13 + c33) / 9 := rfl
  have ep : (parVec rho0 cvav tol gamma ec0 [r'] [c11, c12, c13, c33, c44, gg] k.getParams).getD 37 0
      = k.p := by
    simp [parVec, KMBalD.getParams, List.getD_eq_getElem?_getD]
  have eq : (parVec rho0 cvav tol gamma ec0 [r'] [c11, c12, c13, c33, c44, gg] k.getParams).getD 38 0
      = k.q := by
    simp [parVec, KMBalD.getParams, List.getD_eq_getElem?_getD]
  have eu : unitExp ↔ (k.p = 1 ∧ k.q = 1) := by rw [← ep, ← eq]
  have hG : Case.hcpA.type.setGeom [r'] = Out.bind (slipGeomHCP r') fun g => .ok g := by
    show Out.bind (hcpSetParams [r']) _ = _
    rw [hcpSetParams_eq]
    cases slipGeomHCP r' <;> rfl
  have hE : Case.hcpA.type.setEl [c11, c12, c13, c33, c44, gg] = .ok (.hexag c11 c12 c13 c33 c44 gg) :=
    rfl
  have hS := KMBalD.setParams_getParams k
  rw [hga, hp1, hq1, hss] at hS
  have hK : Case.hcpA.type.setKin S k.getParams
      = Out.bind (KMBalD.setParams true true true true 24 k.getParams)
          fun k => .ok (k.kin S 24, k.histInfo) := rfl
  have e : out = Out.bind (slipGeomHCP r') fun _ =>
      Out.bind (if (k.p = 1) then if (k.q = 1) then .ok k else .undef "assert(_q == one)"
        else .undef "assert(_p == one)" : Out (KMBalD 24)) fun _ =>
        Out.bind (Elast.hexag c11 c12 c13 c33 c44 gg).getBulkMod fun _ => .ok () := by
    show (MM.initFromParams S [] _ strs m).2 = _
    rw [ho, hG, hE, hK, hS]
    simp only [forall_const]
    cases slipGeomHCP r' with
    | fail s => rfl
    | undef s => rfl
    | ok g =>
      simp only [Out.bind]
      by_cases h1 : k.p = 1
      · by_cases h2 : k.q = 1
        · simp only [h1, h2, if_true]
          rfl
        · simp only [h1, h2, if_true, if_false]
      · simp only [h1, if_false]
  rw [eu, eb, er, e, slipGeomHCP_eq, ratio_iff]
  refine ⟨fun h1 => ?_, fun h1 h2 => ?_, fun h1 h2 h3 => ?_, fun h1 h2 h3 => ?_⟩
  · rw [if_pos (not_not.1 h1)]; exact ⟨_, rfl⟩
  · rw [if_neg h1]
    simp only [Out.bind]
    by_cases h3 : k.p = 1
    · have h4 : k.q ≠ 1 := fun h4 => h2 ⟨h3, h4⟩
      rw [if_pos h3, if_neg h4]; exact ⟨_, rfl⟩
    · rw [if_neg h3]; exact ⟨_, rfl⟩
  · rw [if_neg h1, if_pos h2.1, if_pos h2.2]
    simp only [Out.bind]
    rw [getBulkMod_fail (by simp only [Elast.kBulkMod]; linarith)]; exact ⟨_, rfl⟩
  · rw [if_neg h1, if_pos h2.1, if_pos h2.2]
    simp only [Out.bind]
    rw [getBulkMod_ok (by simp only [Elast.kBulkMod]; linarith)]

/-- C39 (finding): an axial ratio of -1.6 is rejected, although all counts are right and whatever the
    bulk modulus -/
theorem C39_negative_ratio (S : Solver 1) (m : MM Case.hcpA.type) (pars : List ℝ) (strs : List String)
    (h : pars.length = 97) (hs : strs.length ≤ 1) (hr : pars.getD 3 0 = -1.6) :
    Fails (m.initFromParams S [] pars strs).2 := by
  refine (C39_hcp S m pars strs h hs).1 ?_
  rw [hr]
  unfold RatioOk
  push Not
  refine ⟨by norm_num, ?_⟩
  have h1 : Real.sqrt ((-1.6 : ℝ) ^ 2 + 3 / 4) ≤ 2 := by
    rw [Real.sqrt_le_left (by norm_num)]; norm_num
  have h2 : Real.sqrt ((-1.6 : ℝ) ^ 2 + 1) ≤ 2 := by
    rw [Real.sqrt_le_left (by norm_num)]; norm_num
  have h3 : 1 ≤ Real.sqrt 3 := by rw [Real.one_le_sqrt]; norm_num
  have h4 : Real.sqrt ((-1.6 : ℝ) ^ 2 + 3 / 4) * Real.sqrt ((-1.6 : ℝ) ^ 2 + 1) ≤ 2 * 2 :=
    mul_le_mul h1 h2 (Real.sqrt_nonneg _) (by norm_num)
  have h5 : |(-1.6 : ℝ)| = 1.6 := by norm_num
  rw [h5]
  nlinarith

/-- the entry of a history description at a position -/
noncomputable def entry (d : List HistEntry) (i : ℕ) : HistEntry := d.getD i ⟨"", 0, false, false⟩

/-- the initial history array of a description -/
noncomputable def initialArray (nH n : ℕ) (d : List HistEntry) : Vec (numHist nH n) :=
  fun i => (entry d i).init

/-- C41: after a successful initialisation the history can be described, with exactly as many entries
    as the update uses -/
theorem C41_length {T : MType} (S : Solver 1) (m : MM T) (opts : List ℤ) (pars : List ℝ)
    (strs : List String) (h : (m.initFromParams S opts pars strs).2 = .ok ()) :
    ∃ d, (m.initFromParams S opts pars strs).1.getHistInfo = .ok d ∧
      d.length = Ecm.numHist T.nH T.nslip := by
  obtain ⟨rfl, hs, rho0, cvav, tol, gamma, ec0, gl, el, kl, rfl, hg, he, hk, g, e, k, info, hG, hE, hK,
    hB, hI⟩ := init_ok_inv S m opts pars strs h
  rw [init_ok S m rho0 cvav tol gamma ec0 gl el kl strs hg he hk hs hG hE hK hB hI]
  have hl : (histDesc info T.nslip).length = T.numHist := by
    rw [histDesc_length, MType.numHist, Ecm.numHist, hI]
  refine ⟨histDesc info T.nslip, ?_, hl⟩
  unfold MM.getHistInfo
  rw [if_neg (by simpa using hl)]

/-- C41: the names stand at the positions where the update keeps the values -/
theorem C41_names {T : MType} (S : Solver 1) (m : MM T) (opts : List ℤ) (pars : List ℝ)
    (strs : List String) (h : (m.initFromParams S opts pars strs).2 = .ok ()) (d : List HistEntry)
    (hd : (m.initFromParams S opts pars strs).1.getHistInfo = .ok d) :
    (entry d 0).name = "shrate_eff" ∧ (entry d 1).name = "shr_eff" ∧ (entry d 2).name = "flow_str" ∧
    (entry d 3).name = "n_feval" ∧
    (∀ i < 5, (entry d (4 + i)).name = "t" ++ toString (i + 1)) ∧
    (∀ i < 4, (entry d (9 + i)).name = "quat_" ++ toString (i + 1)) ∧
    (∃ k info kl, T.setKin S kl = .ok (k, info) ∧ info.length = T.nH ∧
      ∀ i < T.nH, entry d (13 + i) = entry info i) ∧
    (∀ i < T.nslip, (entry d (13 + T.nH + i)).name = "shrate_" ++ toString (i + 1)) := by
  obtain ⟨rfl, hs, rho0, cvav, tol, gamma, ec0, gl, el, kl, rfl, hg, he, hk, g, e, k, info, hG, hE, hK,
    hB, hI⟩ := init_ok_inv S m opts pars strs h
  rw [init_ok S m rho0 cvav tol gamma ec0 gl el kl strs hg he hk hs hG hE hK hB hI] at hd
  have hd' : d = histDesc info T.nslip := by
    unfold MM.getHistInfo at hd
    split_ifs at hd
    cases hd; rfl
  subst hd'
  obtain ⟨h0, h1, h2, h3⟩ := histDesc_head info T.nslip ⟨"", 0, false, false⟩
  refine ⟨by rw [entry, h0], by rw [entry, h1], by rw [entry, h2], by rw [entry, h3],
    fun i hi => by rw [entry, histDesc_e _ _ _ _ hi], fun i hi => by rw [entry, histDesc_q _ _ _ _ hi],
    ⟨k, info, kl, hK, hI, fun i hi => histDesc_h _ _ _ _ (by omega)⟩,
    fun i hi => by rw [entry, ← hI, histDesc_gdot _ _ _ _ hi]⟩

/-- C41: the described initial values are zero rates, zero elastic strain, the identity orientation and
    the initial hardness given by the kinetics -/
theorem C41_initial {T : MType} (S : Solver 1) (m : MM T) (opts : List ℤ) (pars : List ℝ)
    (strs : List String) (h : (m.initFromParams S opts pars strs).2 = .ok ()) (d : List HistEntry)
    (hd : (m.initFromParams S opts pars strs).1.getHistInfo = .ok d) :
    let H := Hist.ofArray (initialArray T.nH T.nslip d)
    H.shrateEff = 0 ∧ H.shrEff = 0 ∧ H.flowStr = 0 ∧ H.nFEval = 0 ∧ (∀ i, H.e i = 0) ∧
    H.q 0 = 1 ∧ H.q 1 = 0 ∧ H.q 2 = 0 ∧ H.q 3 = 0 ∧ (∀ i, H.gdot i = 0) ∧
    ∃ k info kl, T.setKin S kl = .ok (k, info) ∧ kl = (pars.drop (3 + T.geomN + T.elN)).take T.kinN ∧
      ∀ i, H.h i = (entry info i).init := by
  obtain ⟨rfl, hs, rho0, cvav, tol, gamma, ec0, gl, el, kl, rfl, hg, he, hk, g, e, k, info, hG, hE, hK,
    hB, hI⟩ := init_ok_inv S m opts pars strs h
  rw [init_ok S m rho0 cvav tol gamma ec0 gl el kl strs hg he hk hs hG hE hK hB hI] at hd
  have hd' : d = histDesc info T.nslip := by
    unfold MM.getHistInfo at hd
    split_ifs at hd
    cases hd; rfl
  subst hd'
  obtain ⟨h0, h1, h2, h3⟩ := histDesc_head info T.nslip ⟨"", 0, false, false⟩
  have hq := histDesc_q info T.nslip ⟨"", 0, false, false⟩
  simp only [Hist.ofArray, initialArray, entry]
  refine ⟨by rw [h0], by rw [h1], by rw [h2], by rw [h3], fun i => by rw [histDesc_e _ _ _ _ i.2],
    ?_, ?_, ?_, ?_, fun i => ?_, k, info, kl, hK, ?_, fun i => ?_⟩
  · simpa using congrArg HistEntry.init (hq 0 (by norm_num))
  · simpa using congrArg HistEntry.init (hq 1 (by norm_num))
  · simpa using congrArg HistEntry.init (hq 2 (by norm_num))
  · simpa using congrArg HistEntry.init (hq 3 (by norm_num))
  · rw [show 13 + T.nH + i.1 = 13 + info.length + i.1 by rw [hI], histDesc_gdot _ _ _ _ i.2]
  · unfold parVec
    rw [show rho0 :: cvav :: tol :: (gl ++ (el ++ (kl ++ [gamma, ec0])))
      = ([rho0, cvav, tol] ++ gl ++ el) ++ (kl ++ [gamma, ec0]) by simp,
      List.drop_left' (by simp [hg, he]; omega), List.take_left' hk]
  · rw [histDesc_h _ _ _ _ (by rw [hI]; exact i.2)]

/-- C41: what each model says about its hardness variable: name and initial value (the last parameter
    of the kinetics) -/
theorem C41_hardness (c : Case) (S : Solver 1) (m : MM c.type) (opts : List ℤ) (pars : List ℝ)
    (strs : List String) (h : (m.initFromParams S opts pars strs).2 = .ok ()) (d : List HistEntry)
    (hd : (m.initFromParams S opts pars strs).1.getHistInfo = .ok d) :
    entry d 13 = ⟨hardnessName c, pars.getD (parCount c - 3) 0, true, true⟩ := by
  obtain ⟨rfl, hs, rho0, cvav, tol, gamma, ec0, gl, el, kl, rfl, hg, he, hk, g, e, k, info, hG, hE, hK,
    hB, hI⟩ := init_ok_inv S m opts pars strs h
  rw [init_ok S m rho0 cvav tol gamma ec0 gl el kl strs hg he hk hs hG hE hK hB hI] at hd
  have hd' : d = histDesc info c.type.nslip := by
    unfold MM.getHistInfo at hd
    split_ifs at hd
    cases hd; rfl
  subst hd'
  have hl := parVec_length (T := c.type) rho0 cvav tol gamma ec0 gl el kl hg he hk
  have hi := case_info c S kl hk hK
  have h13 := histDesc_h info c.type.nslip ⟨"", 0, false, false⟩ 0 (by rw [hi]; simp)
  have hkn : kl ≠ [] := by
    intro hc; subst hc; cases c <;> simp [Case.type, Voce.nParams, KMBalD.nParams] at hk
  have hlast : (parVec rho0 cvav tol gamma ec0 gl el kl).getD (parCount c - 3) 0 = kl.getLastD 0 := by
    rw [← parCount_eq, ← hl]
    unfold parVec
    rw [show rho0 :: cvav :: tol :: (gl ++ (el ++ (kl ++ [gamma, ec0])))
      = (([rho0, cvav, tol] ++ gl ++ el) ++ kl) ++ [gamma, ec0] by simp]
    rw [List.getD_eq_getElem?_getD, List.getElem?_append_left (by
      have := List.length_pos_iff.2 hkn; simp; omega),
      List.getElem?_append_right (by have := List.length_pos_iff.2 hkn; simp; omega)]
    rw [List.getLastD_eq_getLast?, List.getLast?_eq_getElem?]
    congr 2
    have := List.length_pos_iff.2 hkn
    simp; omega
  rw [entry, h13, hlast, hi]
  rfl

/-- C41: no two history variables of a model have the same name -/
theorem C41_distinct (c : Case) (S : Solver 1) (m : MM c.type) (opts : List ℤ) (pars : List ℝ)
    (strs : List String) (h : (m.initFromParams S opts pars strs).2 = .ok ()) (d : List HistEntry)
    (hd : (m.initFromParams S opts pars strs).1.getHistInfo = .ok d) :
    (d.map HistEntry.name).Nodup := by
  obtain ⟨rfl, hs, rho0, cvav, tol, gamma, ec0, gl, el, kl, rfl, hg, he, hk, g, e, k, info, hG, hE, hK,
    hB, hI⟩ := init_ok_inv S m opts pars strs h
  rw [init_ok S m rho0 cvav tol gamma ec0 gl el kl strs hg he hk hs hG hE hK hB hI] at hd
  have hd' : d = histDesc info c.type.nslip := by
    unfold MM.getHistInfo at hd
    split_ifs at hd
    cases hd; rfl
  subst hd'
  rw [case_info c S kl hk hK, histDesc_names]
  cases c <;> simp only [List.map_cons, List.map_nil, Case.type] <;> decide +kernel

/-- C42: for every sequence of calls on a new model that does not contain `complete`, asking for a
    response fails and leaves all arrays as they are -/
theorem C42_not_complete {T : MType} (S : Solver 1) (st : Strides) (cs : List Call) (m : MM T)
    (h : MM.calls S (MM.new T st) cs = .ok m) (hn : Call.complete ∉ cs) (X : Ext) (a : BatchIn) (N : ℕ)
    (b : BatchMem) : ∃ msg, m.getResponse X a N b = .fail msg b := by
  have hc := calls_complete S cs _ _ h hn
  refine ⟨"not complete", ?_⟩
  unfold MM.getResponse
  rw [if_pos (by rw [hc]; rfl)]

/-- C42: for every sequence of calls on a new model in which no initialisation has the right counts,
    neither the reference density nor the history description can be read, nor a response be had -/
theorem C42_not_initialised {T : MType} (S : Solver 1) (st : Strides) (cs : List Call) (m : MM T)
    (hw : ∀ o p s, Call.init o p s ∈ cs → p.length ≠ T.nParams ∨ o.length ≠ 0 ∨ 1 < s.length)
    (h : MM.calls S (MM.new T st) cs = .ok m) :
    Fails m.getRhoRef ∧ Fails m.getHistInfo ∧
      ∀ X a N b, ∃ msg, m.getResponse X a N b = .fail msg b := by
  obtain ⟨h1, h2, _, h4⟩ := (calls_no_init S cs hw (MM.new T st) rfl).2 m h
  refine ⟨⟨"rho0 does not appear to have been set", ?_⟩, ⟨"have not yet set up history information", ?_⟩,
    fun X a N b => ⟨"not complete", ?_⟩⟩
  · unfold MM.getRhoRef
    rw [if_pos (by rw [h1]; simp [MM.new])]
  · unfold MM.getHistInfo
    rw [if_pos (by rw [h2]; simp [MM.new, MType.numHist, Ecm.numHist]; omega)]
  · unfold MM.getResponse
    rw [if_pos (by rw [h4]; rfl)]

/-- C42 (finding): completing a model before it has been initialised with the right counts is not
    refused: it reads a member that has never been set -/
theorem C42_complete_too_early {T : MType} (S : Solver 1) (st : Strides) (cs : List Call)
    (hw : ∀ o p s, Call.init o p s ∈ cs → p.length ≠ T.nParams ∨ o.length ≠ 0 ∨ 1 < s.length)
    (hc : Call.complete ∈ cs) : Undef (MM.calls S (MM.new T st) cs) :=
  (calls_no_init S cs hw (MM.new T st) rfl).1 hc

/-- C42: once initialised and completed, the density can be read if it is not negative, and a response
    is the batch update with the material, tolerance and strides of the model -/
theorem C42_ready {T : MType} (S : Solver 1) (m0 m1 : MM T) (opts : List ℤ) (pars : List ℝ)
    (strs : List String) (h : m0.initFromParams S opts pars strs = (m1, .ok ())) :
    (0 ≤ pars.getD 0 0 → m1.getRhoRef = .ok (pars.getD 0 0)) ∧
    ∃ m2 g k el eos, m1.setComplete = .ok m2 ∧ m2.geom = some g ∧ m2.kin = some k ∧ m2.el = some el ∧
      m2.eos = some eos ∧ m2.bulkRef = el.kBulkMod ∧ eos.bulkMod = el.kBulkMod ∧
      eos.rho0 = pars.getD 0 0 ∧ eos.cvav = pars.getD 1 0 ∧
      ∀ X a N b, m2.getResponse X a N b = getResponseECM X
        ({ geom := g, kin := k, el := el, eos := eos } : Material T.nslip T.nH) m0.strides true
        { a with tol := pars.getD 2 0 } N b := by
  obtain ⟨rfl, hs, rho0, cvav, tol, gamma, ec0, gl, el, kl, rfl, hg, he, hk, g, e, k, info, hG, hE, hK,
    hB, hI⟩ := init_ok_inv S m0 opts pars strs (by rw [h])
  rw [init_ok S m0 rho0 cvav tol gamma ec0 gl el kl strs hg he hk hs hG hE hK hB hI] at h
  cases h
  refine ⟨fun hr => ?_, _, g, k, e, _, rfl, rfl, rfl, rfl, rfl, rfl, rfl, rfl, rfl, fun X a N b => rfl⟩
  unfold MM.getRhoRef
  exact if_neg (not_lt.2 hr)

/-- C42 (finding): an initialisation that fails on a complete model leaves it complete: the next response
    is not refused, although the parameters read back are the rejected ones -/
theorem C42_failed_init_keeps_complete {T : MType} (S : Solver 1) (m : MM T) (hc : m.complete = true)
    (opts : List ℤ) (pars : List ℝ) (strs : List String) (hp : pars.length ≠ T.nParams) :
    ∃ m', m.call S (.init opts pars strs) = .ok m' ∧ m'.complete = true ∧
      m'.getParams = (opts, pars, strs) ∧
      ∀ X a N b, m'.getResponse X a N b = m.getResponse X a N b := by
  obtain ⟨msg, e⟩ := init_wrong_counts S m opts pars strs (Or.inl hp)
  refine ⟨{ m with opts := opts, pars := pars, strs := strs }, ?_, hc, rfl, fun X a N b => rfl⟩
  simp [MM.call, e]

/-- C43: creation by name succeeds exactly for the five names of the documentation -/
theorem C43_names (name : String) (c : Case) : makeMatModel name = .ok c ↔
    (name = "evptn_FCC_A" ∧ c = .fccA) ∨ (name = "evptn_FCC_AH" ∧ c = .fccAH) ∨
    (name = "evptn_FCC_B" ∧ c = .fccB) ∨ (name = "evptn_BCC_A" ∧ c = .bccA) ∨
    (name = "evptn_HCP_A" ∧ c = .hcpA) := by
  unfold makeMatModel
  split_ifs with h1 h2 h3 h4 h5
  all_goals subst_vars
  all_goals simp_all
  all_goals exact eq_comm

/-- C43: any other name is an error that quotes it -/
theorem C43_other (name : String) (h : name ∉ ["evptn_FCC_A", "evptn_FCC_AH", "evptn_FCC_B",
    "evptn_BCC_A", "evptn_HCP_A"]) :
    makeMatModel name = .fail ("model name not recognized : " ++ name) := by
  simp only [List.mem_cons, List.not_mem_nil, or_false, not_or] at h
  simp [makeMatModel, h]

/-- C43: FCC_A, FCC_AH: the twelve FCC slip systems, power law with (linear / nonlinear) Voce hardening,
    cubic elasticity and an equation of state with the bulk modulus of the elasticity -/
theorem C43_fcc_voce (S : Solver 1) (m : MM Case.fccA.type)
    (rho0 cvav tol c11 c12 c44 mu xm gamW h0 tausi taus0 xms gamss0 hdn gamma ec0 : ℝ)
    (hb : 0 < (c11 + 2 * c12) / 3) :
    let m' := (m.initFromParams S [] [rho0, cvav, tol, c11, c12, c44, mu, xm, gamW, h0, tausi, taus0,
      xms, gamss0, hdn, gamma, ec0] []).1
    m'.geom = some (slipPQ fccM fccS) ∧ m'.el = some (.cubic c11 c12 c44) ∧
    m'.kin = some (Voce.kin { nonlinear := false, mu := mu, xm := xm, gamW := gamW, h0 := h0
                              tausi := tausi, taus0 := taus0, xmprime := 1, xms := xms
                              gamss0 := gamss0, hdnInit := hdn } S 12) ∧
    m'.eos = some { isothermal := false, rho0 := rho0, bulkMod := 1 / 3 * (c11 + 2 * c12)
                    cvav := cvav, gamma := gamma, ec0 := ec0 } ∧ m'.tolerance = some tol := by
  have e := init_ok (T := Case.fccA.type) S m rho0 cvav tol gamma ec0 [] [c11, c12, c44]
    [mu, xm, gamW, h0, tausi, taus0, xms, gamss0, hdn] [] rfl rfl rfl (by simp) C16_fcc.2
    (Elast.setCubic_eq c11 c12 c44) rfl (by simp only [Elast.kBulkMod]; linarith) rfl
  intro m'
  have e' : m' = _ := congrArg Prod.fst e
  rw [e']
  exact ⟨rfl, rfl, rfl, rfl, rfl⟩

/-- C43: FCC_AH -/
theorem C43_fcc_voce_nonlinear (S : Solver 1) (m : MM Case.fccAH.type)
    (rho0 cvav tol c11 c12 c44 mu xm gamW h0 tausi taus0 xmprime xms gamss0 hdn gamma ec0 : ℝ)
    (hb : 0 < (c11 + 2 * c12) / 3) :
    let m' := (m.initFromParams S [] [rho0, cvav, tol, c11, c12, c44, mu, xm, gamW, h0, tausi, taus0,
      xmprime, xms, gamss0, hdn, gamma, ec0] []).1
    m'.geom = some (slipPQ fccM fccS) ∧ m'.el = some (.cubic c11 c12 c44) ∧
    m'.kin = some (Voce.kin { nonlinear := true, mu := mu, xm := xm, gamW := gamW, h0 := h0
                              tausi := tausi, taus0 := taus0, xmprime := xmprime, xms := xms
                              gamss0 := gamss0, hdnInit := hdn } S 12) ∧
    m'.eos = some { isothermal := false, rho0 := rho0, bulkMod := 1 / 3 * (c11 + 2 * c12)
                    cvav := cvav, gamma := gamma, ec0 := ec0 } ∧ m'.tolerance = some tol := by
  have e := init_ok (T := Case.fccAH.type) S m rho0 cvav tol gamma ec0 [] [c11, c12, c44]
    [mu, xm, gamW, h0, tausi, taus0, xmprime, xms, gamss0, hdn] [] rfl rfl rfl (by simp) C16_fcc.2
    (Elast.setCubic_eq c11 c12 c44) rfl (by simp only [Elast.kBulkMod]; linarith) rfl
  intro m'
  have e' : m' = _ := congrArg Prod.fst e
  rw [e']
  exact ⟨rfl, rfl, rfl, rfl, rfl⟩

/-- C43: FCC_B: the twelve FCC slip systems, balanced thermally activated / drag limited kinetics
    without athermal strength, cubic elasticity -/
theorem C43_fcc_km (S : Solver 1) (m : MM Case.fccB.type)
    (rho0 cvav tol c11 c12 c44 gamma ec0 : ℝ) (k : KMBalD 1) (hf : k.withGA = false ∧ k.pOne = false ∧
      k.qOne = false ∧ k.perSS = false) (hb : 0 < (c11 + 2 * c12) / 3) :
    let m' := (m.initFromParams S [] ([rho0, cvav, tol] ++ [c11, c12, c44] ++ k.getParams
      ++ [gamma, ec0]) []).1
    m'.geom = some (slipPQ fccM fccS) ∧ m'.el = some (.cubic c11 c12 c44) ∧
    m'.kin = some (k.kin S 12) ∧
    m'.eos = some { isothermal := false, rho0 := rho0, bulkMod := 1 / 3 * (c11 + 2 * c12)
                    cvav := cvav, gamma := gamma, ec0 := ec0 } ∧ m'.tolerance = some tol := by
  have hk := km_accepts false false false false k hf.1 hf.2.1 hf.2.2.1 hf.2.2.2 (by simp) (by simp)
  have e := init_ok (T := Case.fccB.type) S m rho0 cvav tol gamma ec0 [] [c11, c12, c44]
    k.getParams [] rfl rfl rfl (by simp) C16_fcc.2
    (Elast.setCubic_eq c11 c12 c44) (k := k.kin S 12) (info := k.histInfo)
    (kinKM_eq hk S _) (by simp only [Elast.kBulkMod]; linarith) rfl
  intro m'
  have e' : m' = _ := congrArg Prod.fst e
  rw [e']
  exact ⟨rfl, rfl, rfl, rfl, rfl⟩

/-- C43: BCC_A: the twelve BCC slip systems, balanced kinetics with athermal strength, cubic
    elasticity -/
theorem C43_bcc_km (S : Solver 1) (m : MM Case.bccA.type)
    (rho0 cvav tol c11 c12 c44 gamma ec0 : ℝ) (k : KMBalD 1) (hf : k.withGA = true ∧ k.pOne = false ∧
      k.qOne = false ∧ k.perSS = false) (hb : 0 < (c11 + 2 * c12) / 3) :
    let m' := (m.initFromParams S [] ([rho0, cvav, tol] ++ [c11, c12, c44] ++ k.getParams
      ++ [gamma, ec0]) []).1
    m'.geom = some (slipPQ bccM12 bccS12) ∧ m'.el = some (.cubic c11 c12 c44) ∧
    m'.kin = some (k.kin S 12) ∧
    m'.eos = some { isothermal := false, rho0 := rho0, bulkMod := 1 / 3 * (c11 + 2 * c12)
                    cvav := cvav, gamma := gamma, ec0 := ec0 } ∧ m'.tolerance = some tol := by
  have hk := km_accepts true false false false k hf.1 hf.2.1 hf.2.2.1 hf.2.2.2 (by simp) (by simp)
  have e := init_ok (T := Case.bccA.type) S m rho0 cvav tol gamma ec0 [] [c11, c12, c44]
    k.getParams [] rfl rfl rfl (by simp) C16_bcc.1.2
    (Elast.setCubic_eq c11 c12 c44) (k := k.kin S 12) (info := k.histInfo)
    (kinKM_eq hk S _) (by simp only [Elast.kBulkMod]; linarith) rfl
  intro m'
  have e' : m' = _ := congrArg Prod.fst e
  rw [e']
  exact ⟨rfl, rfl, rfl, rfl, rfl⟩

/-- C43: HCP_A: the 24 HCP slip systems for the given axial ratio, balanced kinetics with athermal
    strength, unit exponents and one set of constants per slip system, hexagonal elasticity -/
theorem C43_hcp_km (S : Solver 1) (m : MM Case.hcpA.type)
    (rho0 cvav tol r c11 c12 c13 c33 c44 g gamma ec0 : ℝ) (k : KMBalD 24) (hr : 0 < r)
    (hf : k.withGA = true ∧ k.pOne = true ∧ k.qOne = true ∧ k.perSS = true) (hp : k.p = 1) (hq : k.q = 1)
    (hb : 0 < (2 * c11 + 2 * c12 + 4 * c13 + c33) / 9) :
    let m' := (m.initFromParams S [] ([rho0, cvav, tol] ++ [r] ++ [c11, c12, c13, c33, c44, g]
      ++ k.getParams ++ [gamma, ec0]) []).1
    (∃ mv sv, hcpMS r = .ok (mv, sv) ∧ m'.geom = some (slipPQ mv sv)) ∧
    m'.el = some (.hexag c11 c12 c13 c33 c44 g) ∧
    m'.kin = some (k.kin S 24) ∧
    m'.eos = some { isothermal := false, rho0 := rho0
                    bulkMod := 1 / 3 * (2 / 3 * c11 + 2 / 3 * c12 + 4 / 3 * c13 + c33 * (1 / 3))
                    cvav := cvav, gamma := gamma, ec0 := ec0 } ∧ m'.tolerance = some tol := by
  have hk := km_accepts true true true true k hf.1 hf.2.1 hf.2.2.1 hf.2.2.2 (fun _ => hp) (fun _ => hq)
  obtain ⟨mv, sv, h1, _, h2⟩ := C16_hcp r hr
  have hG : Case.hcpA.type.setGeom [r] = .ok (slipPQ mv sv) := by
    show Out.bind (hcpSetParams [r]) _ = _
    rw [hcpSetParams_eq, h2]; rfl
  have e := init_ok (T := Case.hcpA.type) S m rho0 cvav tol gamma ec0 [r] [c11, c12, c13, c33, c44, g]
    k.getParams [] rfl rfl rfl (by simp) hG
    (Elast.setHexag_eq c11 c12 c13 c33 c44 g) (k := k.kin S 24) (info := k.histInfo)
    (kinKM_eq hk S _) (by simp only [Elast.kBulkMod]; linarith) rfl
  intro m'
  have e' : m' = _ := congrArg Prod.fst e
  rw [e']
  exact ⟨⟨mv, sv, h1, rfl⟩, rfl, rfl, rfl, rfl⟩

/-! The hypotheses are met by parameters like those of the tests (copper, and a hexagonal metal). -/

/-- parameters of an FCC model with Voce hardening -/
noncomputable def exPars : List ℝ :=
  [8.92e-6, 0.003435984, 1e-10, 168.4, 121.4, 75.2, 44.0, 0.02, 1.0, 400e-3, 17e-3, 122.4e-3, 0.0, 5.0e9,
    17e-3, 1.7, -1.0307952]

/-- kinetics of a hexagonal model -/
noncomputable def exHcpKin : KMBalD 24 where
  withGA := true
  pOne := true
  qOne := true
  perSS := true
  muRef := 1
  tKRef := 300
  c1 := fun _ => 20000
  tauA := 0
  p := 1
  q := 1
  gamWo := 1
  gamRo := 1000
  wrD := 0.02
  go := fun i => if i.1 < 3 then 0.001 else 0.002
  s := fun _ => 0.0005
  k1 := 100
  k2o := 10
  ninv := 0.1
  gammaO := 1
  hdnInit := 1

/-- parameters of a hexagonal model -/
noncomputable def exHcpPars : List ℝ :=
  [1.85e-6, 0.003, 1e-10] ++ [1.568] ++ [292, 27, 14, 336, 162, 150] ++ exHcpKin.getParams ++ [1.7, -1.2]

theorem exHcpPars_length : exHcpPars.length = 97 := by
  simp [exHcpPars, KMBalD.getParams]

example (S : Solver 1) (st : Strides) :
    ((MM.new Case.fccA.type st).initFromParams S [] exPars []).2 = .ok () :=
  (C39_cubic .fccA (by simp) S _ exPars [] rfl (by simp)).1 (by simp [exPars]; norm_num)

example (S : Solver 1) (st : Strides) :
    ((MM.new Case.hcpA.type st).initFromParams S [] exHcpPars []).2 = .ok () :=
  (C39_hcp S _ exHcpPars [] exHcpPars_length (by simp)).2.2.2
    (Or.inl (by simp [exHcpPars]; norm_num))
    (by constructor <;> simp [exHcpPars, KMBalD.getParams, exHcpKin, List.getD_eq_getElem?_getD])
    (by simp [exHcpPars]; norm_num)

example (S : Solver 1) (st : Strides) :
    ∃ m, MM.calls S (MM.new Case.fccA.type st) [.init [] exPars [], .complete] = .ok m ∧
      m.complete = true := by
  have h := (C39_cubic .fccA (by simp) S (MM.new Case.fccA.type st) exPars [] rfl (by simp)).1
    (by simp [exPars]; norm_num)
  obtain ⟨m1, o⟩ : ∃ m1, (MM.new Case.fccA.type st).initFromParams S [] exPars [] = (m1, .ok ()) :=
    ⟨_, Prod.ext rfl h⟩
  obtain ⟨_, m2, g, k, el, eos, hc, _⟩ := C42_ready S _ m1 [] exPars [] o
  refine ⟨m2, ?_, ?_⟩
  · simp [MM.calls, MM.call, o, Out.bind, hc]
  · unfold MM.setComplete at hc
    split at hc
    · cases hc
    · cases hc; rfl

example (S : Solver 1) (st : Strides) :
    ∃ m, MM.calls S (MM.new Case.fccA.type st) [.init [] [1, 2] [], .init [3] exPars []] = .ok m ∧
      Fails m.getRhoRef := by
  have hw : ∀ o p s, Call.init o p s ∈ [Call.init [] [1, 2] [], Call.init [3] exPars []] →
      p.length ≠ Case.fccA.type.nParams ∨ o.length ≠ 0 ∨ 1 < s.length := by
    intro o p s hm
    simp only [List.mem_cons, Call.init.injEq, List.not_mem_nil, or_false] at hm
    rcases hm with ⟨rfl, rfl, rfl⟩ | ⟨rfl, rfl, rfl⟩
    · exact Or.inl (by simp [parCount_eq, parCount])
    · exact Or.inr (Or.inl (by simp))
  obtain ⟨m, e⟩ := calls_no_init_ok S _ hw (by simp) (MM.new Case.fccA.type st)
  exact ⟨m, e, (C42_not_initialised S st _ _ hw e).1⟩

end Ecm.Props
