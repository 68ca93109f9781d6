/- Helper lemmas for the model class: initialisation from parameters. -/
import Verif.Model.Wrap
import Verif.Lemmas.Params
import Verif.SpecApi

namespace Ecm
open Classical

theorem histDesc_length (info : List HistEntry) (n : ℕ) :
    (histDesc info n).length = 13 + info.length + n := by
  simp [histDesc]; omega

section init
variable {T : MType} (S : Solver 1) (m : MM T) (rho0 cvav tol gamma ec0 : ℝ)
  (gl el kl : List ℝ) (strs : List String)

/-- a parameter vector put together from its parts -/
def parVec : List ℝ := rho0 :: cvav :: tol :: (gl ++ (el ++ (kl ++ [gamma, ec0])))

theorem parVec_length (hg : gl.length = T.geomN) (he : el.length = T.elN) (hk : kl.length = T.kinN) :
    (parVec rho0 cvav tol gamma ec0 gl el kl).length = T.nParams := by
  simp [parVec, MType.nParams, nParamsEOS, hg, he, hk]; omega

/-- every vector of the right length is put together from parts -/
theorem exists_parVec (pars : List ℝ) (h : pars.length = T.nParams) :
    ∃ rho0 cvav tol gamma ec0 gl el kl, pars = parVec rho0 cvav tol gamma ec0 gl el kl ∧
      gl.length = T.geomN ∧ el.length = T.elN ∧ kl.length = T.kinN := by
  unfold MType.nParams nParamsEOS at h
  obtain ⟨rho0, l, rfl, h1⟩ := exists_cons pars (by omega)
  obtain ⟨cvav, l, rfl, h2⟩ := exists_cons l (by omega)
  obtain ⟨tol, l, rfl, h3⟩ := exists_cons l (by omega)
  simp only [List.length_cons] at h h1 h2 h3
  have h5 : (l.drop (T.geomN + T.elN + T.kinN)).length = 2 := by simp; omega
  obtain ⟨gamma, ec0, h6⟩ := List.length_eq_two.1 h5
  refine ⟨rho0, cvav, tol, gamma, ec0, l.take T.geomN, (l.drop T.geomN).take T.elN,
    (l.drop (T.geomN + T.elN)).take T.kinN, ?_, by simp; omega, by simp; omega, by simp; omega⟩
  unfold parVec
  have e1 : l.drop (T.geomN + T.elN + T.kinN) = (l.drop (T.geomN + T.elN)).drop T.kinN := by
    rw [List.drop_drop]
  have e2 : l.drop (T.geomN + T.elN) = (l.drop T.geomN).drop T.elN := by rw [List.drop_drop]
  rw [← h6, e1, List.take_append_drop, e2, List.take_append_drop, List.take_append_drop]

/-- the outcome of an initialisation with the right counts -/
theorem init_outcome (hg : gl.length = T.geomN) (he : el.length = T.elN) (hk : kl.length = T.kinN)
    (hs : strs.length ≤ 1) :
    (m.initFromParams S [] (parVec rho0 cvav tol gamma ec0 gl el kl) strs).2
      = Out.bind (T.setGeom gl) fun _ => Out.bind (T.setEl el) fun e =>
          Out.bind (T.setKin S kl) fun k => Out.bind e.getBulkMod fun _ =>
            if k.2.length = T.nH then .ok () else .fail "mismatch in numHist" := by
  have hlen := parVec_length rho0 cvav tol gamma ec0 gl el kl hg he hk
  have hlen' : (parVec rho0 cvav tol gamma ec0 gl el kl).length - 0 = T.nParams := by rw [hlen]; rfl
  unfold MM.initFromParams
  simp only [hlen, ne_eq, not_true_eq_false, if_false, List.length_nil, not_lt.2 hs]
  unfold MM.initGeom parVec
  simp only
  rw [if_neg (by simp [hg]), ← hg, List.take_left' rfl, List.drop_left' rfl]
  cases T.setGeom gl with
  | fail s => rfl
  | undef w => rfl
  | ok g =>
    simp only [Out.bind, MM.initEl]
    rw [if_neg (by simp [he]), ← he, List.take_left' rfl, List.drop_left' rfl]
    cases T.setEl el with
    | fail s => rfl
    | undef w => rfl
    | ok e =>
      simp only [Out.bind, MM.initKin]
      rw [if_neg (by simp [hk]), ← hk, List.take_left' rfl, List.drop_left' rfl]
      cases T.setKin S kl with
      | fail s => rfl
      | undef w => rfl
      | ok k =>
        obtain ⟨k, info⟩ := k
        simp only [Out.bind, MM.initEos]
        cases e.getBulkMod with
        | fail s => rfl
        | undef w => rfl
        | ok B =>
          simp only [nParamsEOS, List.length_cons, List.length_nil, List.take, List.cons_append,
            List.nil_append, Eos.setParams_eq, MM.initHist, List.drop]
          rw [if_neg (by simp)]
          rw [if_neg]
          · simp only [histDesc_length, MType.numHist, numHist]
            by_cases h : info.length = T.nH
            · rw [if_neg (by omega), if_pos h]
            · rw [if_pos (by omega), if_neg h]
          · simp only [MType.nParams, nParamsEOS, List.length_append, List.length_cons,
              List.length_nil, hg, he, hk, ne_eq]
            omega

/-- the object after a successful initialisation -/
theorem init_ok (hg : gl.length = T.geomN) (he : el.length = T.elN) (hk : kl.length = T.kinN)
    (hs : strs.length ≤ 1) {g : SlipGeom T.nslip} {e : Elast} {k : Kin T.nslip T.nH}
    {info : List HistEntry} (hG : T.setGeom gl = .ok g) (hE : T.setEl el = .ok e)
    (hK : T.setKin S kl = .ok (k, info)) (hB : 0 < e.kBulkMod) (hI : info.length = T.nH) :
    m.initFromParams S [] (parVec rho0 cvav tol gamma ec0 gl el kl) strs
      = ({ m with
            opts := [], pars := parVec rho0 cvav tol gamma ec0 gl el kl, strs := strs, rho0 := rho0
            cvav := cvav, tolerance := some tol, geom := some g, el := some e, kin := some k
            eos := some { isothermal := T.isothermal, rho0 := rho0, bulkMod := e.kBulkMod
                          cvav := cvav, gamma := gamma, ec0 := ec0 }
            e0 := 0, v0 := 1, rhv := histDesc info T.nslip }, .ok ()) := by
  have hlen := parVec_length rho0 cvav tol gamma ec0 gl el kl hg he hk
  have hb : e.getBulkMod = .ok e.kBulkMod := by
    unfold Elast.getBulkMod; rw [if_neg (not_le.2 hB)]
  unfold MM.initFromParams
  simp only [hlen, ne_eq, not_true_eq_false, if_false, List.length_nil, not_lt.2 hs]
  unfold MM.initGeom parVec
  simp only
  rw [if_neg (by simp [hg]), ← hg, List.take_left' rfl, List.drop_left' rfl, hG]
  simp only [MM.initEl]
  rw [if_neg (by simp [he]), ← he, List.take_left' rfl, List.drop_left' rfl, hE]
  simp only [MM.initKin]
  rw [if_neg (by simp [hk]), ← hk, List.take_left' rfl, List.drop_left' rfl, hK]
  simp only [MM.initEos, hb]
  simp only [nParamsEOS, List.length_cons, List.length_nil, List.take, List.cons_append,
    List.nil_append, Eos.setParams_eq, MM.initHist, List.drop]
  rw [if_neg (by simp), if_neg]
  · simp only [histDesc_length, MType.numHist, numHist]
    rw [if_neg (by omega)]
    simp [Eos.getInfo]
  · simp only [MType.nParams, nParamsEOS, List.length_append, List.length_cons,
      List.length_nil, hg, he, hk, ne_eq]
    omega

end init

/-- whatever happens, the arguments are stored -/
theorem init_stores {T : MType} (S : Solver 1) (m : MM T) (opts : List ℤ) (pars : List ℝ)
    (strs : List String) : (m.initFromParams S opts pars strs).1.getParams = (opts, pars, strs) := by
  unfold MM.initFromParams MM.initGeom MM.initEl MM.initKin MM.initEos MM.initHist
  simp only
  repeat' split
  all_goals rfl

/-- initialisation does not change whether the model is complete, nor the strides -/
theorem init_complete {T : MType} (S : Solver 1) (m : MM T) (opts : List ℤ) (pars : List ℝ)
    (strs : List String) : (m.initFromParams S opts pars strs).1.complete = m.complete ∧
      (m.initFromParams S opts pars strs).1.strides = m.strides := by
  unfold MM.initFromParams MM.initGeom MM.initEl MM.initKin MM.initEos MM.initHist
  simp only
  repeat' split
  all_goals exact ⟨rfl, rfl⟩

theorem slipGeomHCP_eq (r : ℝ) : slipGeomHCP r =
    if idpEpsSqrt < |hu r * hw r * Real.sqrt 3 / 2 * (|r| - r)| then .fail "internal error"
    else .ok (slipPQ (hcpM (hcpNormal r) (hcpNormal r) (hu r * |r|) (hu r * |r|))
      (hcpS hcpDirA (hcpDirCA r) (hw r))) := by
  simp only [slipGeomHCP, hcpMS, miller_ya, miller_y1ca, Out.bind, hcp_mpp_abs, hcp_spp]
  unfold fillFromMS
  simp only [hcp_check]

end Ecm

namespace Ecm
open Classical

theorem Out.bind_ok {α : Type*} {β : Type*} {x : Out α} {f : α → Out β} {b : β}
    (h : Out.bind x f = .ok b) : ∃ a, x = .ok a ∧ f a = .ok b := by
  cases x with
  | ok a => exact ⟨a, rfl, h⟩
  | fail s => simp [Out.bind] at h
  | undef w => simp [Out.bind] at h

/-- what a successful initialisation implies -/
theorem init_ok_inv {T : MType} (S : Solver 1) (m : MM T) (opts : List ℤ) (pars : List ℝ)
    (strs : List String) (h : (m.initFromParams S opts pars strs).2 = .ok ()) :
    opts = [] ∧ strs.length ≤ 1 ∧ ∃ rho0 cvav tol gamma ec0 gl el kl,
      pars = parVec rho0 cvav tol gamma ec0 gl el kl ∧
      gl.length = T.geomN ∧ el.length = T.elN ∧ kl.length = T.kinN ∧
      ∃ g e k info, T.setGeom gl = .ok g ∧ T.setEl el = .ok e ∧ T.setKin S kl = .ok (k, info) ∧
        0 < e.kBulkMod ∧ info.length = T.nH := by
  have hp : pars.length = T.nParams := by
    by_contra hne
    simp [MM.initFromParams, hne] at h
  have ho : opts.length = 0 := by
    by_contra hne
    simp only [MM.initFromParams, hp] at h
    rw [if_neg (by simp), if_pos hne] at h
    exact absurd h (by simp)
  have hs : strs.length ≤ 1 := by
    by_contra hne
    simp only [MM.initFromParams, hp, ho] at h
    rw [if_neg (by simp), if_neg (by simp), if_pos (by omega)] at h
    exact absurd h (by simp)
  have ho' : opts = [] := List.length_eq_zero_iff.1 ho
  subst ho'
  obtain ⟨rho0, cvav, tol, gamma, ec0, gl, el, kl, rfl, hg, he, hk⟩ := exists_parVec (T := T) pars hp
  refine ⟨rfl, hs, rho0, cvav, tol, gamma, ec0, gl, el, kl, rfl, hg, he, hk, ?_⟩
  rw [init_outcome S m rho0 cvav tol gamma ec0 gl el kl strs hg he hk hs] at h
  obtain ⟨g, hG, h⟩ := Out.bind_ok h
  obtain ⟨e, hE, h⟩ := Out.bind_ok h
  obtain ⟨k, hK, h⟩ := Out.bind_ok h
  obtain ⟨B, hB, h⟩ := Out.bind_ok h
  obtain ⟨k, info⟩ := k
  refine ⟨g, e, k, info, hG, hE, hK, ?_, ?_⟩
  · unfold Elast.getBulkMod at hB
    by_contra hn
    rw [if_pos (not_lt.1 hn)] at hB
    exact absurd hB (by simp)
  · by_contra hn
    simp only at h
    rw [if_neg hn] at h
    exact absurd h (by simp)

/-- an initialisation with wrong counts fails and only stores its arguments -/
theorem init_wrong_counts {T : MType} (S : Solver 1) (m : MM T) (opts : List ℤ) (pars : List ℝ)
    (strs : List String) (h : pars.length ≠ T.nParams ∨ opts.length ≠ 0 ∨ 1 < strs.length) :
    ∃ msg, m.initFromParams S opts pars strs
      = ({ m with opts := opts, pars := pars, strs := strs }, .fail msg) := by
  unfold MM.initFromParams
  simp only
  by_cases h1 : pars.length ≠ T.nParams
  · exact ⟨_, by rw [if_pos h1]⟩
  · by_cases h2 : opts.length ≠ 0
    · exact ⟨_, by rw [if_neg h1, if_pos h2]⟩
    · exact ⟨_, by rw [if_neg h1, if_neg h2, if_pos (by tauto)]⟩

section hist
variable (info : List HistEntry) (n : ℕ)

theorem histDesc_head (d : HistEntry) :
    (histDesc info n).getD 0 d = ⟨"shrate_eff", 0, true, true⟩ ∧
    (histDesc info n).getD 1 d = ⟨"shr_eff", 0, true, true⟩ ∧
    (histDesc info n).getD 2 d = ⟨"flow_str", 0, true, false⟩ ∧
    (histDesc info n).getD 3 d = ⟨"n_feval", 0, true, false⟩ := by
  simp [histDesc]

theorem histDesc_e (d : HistEntry) (i : ℕ) (hi : i < 5) :
    (histDesc info n).getD (4 + i) d = ⟨"t" ++ toString (i + 1), 0, true, true⟩ := by
  simp only [histDesc, List.getD_eq_getElem?_getD]
  rw [List.getElem?_append_left (by simp; omega), List.getElem?_append_left (by simp; omega),
    List.getElem?_append_left (by simp; omega), List.getElem?_append_right (by simp)]
  simp [hi]

theorem histDesc_q (d : HistEntry) (i : ℕ) (hi : i < 4) :
    (histDesc info n).getD (9 + i) d
      = ⟨"quat_" ++ toString (i + 1), if i = 0 then 1 else 0, true, true⟩ := by
  simp only [histDesc, List.getD_eq_getElem?_getD]
  rw [List.getElem?_append_left (by simp; omega), List.getElem?_append_left (by simp; omega),
    List.getElem?_append_right (by simp)]
  simp [hi]

theorem histDesc_h (d : HistEntry) (i : ℕ) (hi : i < info.length) :
    (histDesc info n).getD (13 + i) d = info.getD i d := by
  simp only [histDesc, List.getD_eq_getElem?_getD]
  rw [List.getElem?_append_left (by simp; omega), List.getElem?_append_right (by simp)]
  simp

theorem histDesc_gdot (d : HistEntry) (i : ℕ) (hi : i < n) :
    (histDesc info n).getD (13 + info.length + i) d
      = ⟨"shrate_" ++ toString (i + 1), 0, true, true⟩ := by
  simp only [histDesc, List.getD_eq_getElem?_getD]
  rw [List.getElem?_append_right (by simp; omega)]
  simp only [List.length_append, List.length_cons, List.length_nil, List.length_map, List.length_range]
  rw [show 13 + info.length + i - (0 + 1 + 1 + 1 + 1 + 5 + 4 + info.length) = i by omega]
  simp [hi]

end hist

end Ecm

namespace Ecm
open Spec Classical

theorem getBulkMod_ok {e : Elast} (h : 0 < e.kBulkMod) : e.getBulkMod = .ok e.kBulkMod := by
  unfold Elast.getBulkMod; rw [if_neg (not_le.2 h)]

theorem getBulkMod_fail {e : Elast} (h : e.kBulkMod ≤ 0) :
    e.getBulkMod = .fail "bulk modulus negative -- not initialized?" := by
  unfold Elast.getBulkMod; rw [if_pos h]

theorem kinVoce_lin_ok (S : Solver 1) (n : ℕ) (l : List ℝ) (h : l.length = 9) :
    ∃ k, kinVoce false n S l = .ok k ∧ k.2.length = 1 := by
  obtain ⟨a, b, c, d, e, f, g, i, j, rfl⟩ := length_eq_nine h
  exact ⟨_, rfl, rfl⟩

theorem kinVoce_nonlin_ok (S : Solver 1) (n : ℕ) (l : List ℝ) (h : l.length = 10) :
    ∃ k, kinVoce true n S l = .ok k ∧ k.2.length = 1 := by
  obtain ⟨a, b, c, d, e, f, g, i, j, k, rfl⟩ := length_eq_ten h
  exact ⟨_, rfl, rfl⟩

theorem kinKM_ok (S : Solver 1) (n : ℕ) (ga ss : Bool) (nV : ℕ) [NeZero nV] (l : List ℝ)
    (h : l.length = KMBalD.nParams nV) :
    ∃ k, kinKM ga false false ss nV n S l = .ok k ∧ k.2.length = 1 := by
  obtain ⟨k, rfl, rfl, h2, h3, rfl⟩ := KMBalD.exists_getParams ga false false ss nV l h
  have e := KMBalD.setParams_getParams k
  rw [if_pos (by simp [h2]), if_pos (by simp [h3]), h2, h3] at e
  exact ⟨(k.kin S n, k.histInfo), by simp only [kinKM, e, Out.bind], rfl⟩

theorem ratio_iff (r : ℝ) : RatioOk r ↔
    ¬ idpEpsSqrt < |hu r * hw r * Real.sqrt 3 / 2 * (|r| - r)| := by
  have hup := hu_pos r
  have hwp := hw_pos r
  have h3 : 0 < Real.sqrt 3 := by positivity
  have e : |hu r * hw r * Real.sqrt 3 / 2 * (|r| - r)| = hu r * hw r * Real.sqrt 3 / 2 * (|r| - r) :=
    abs_of_nonneg (mul_nonneg (by positivity) (sub_nonneg.2 (le_abs_self r)))
  rw [e, not_lt]
  have hA : 0 < Real.sqrt (r ^ 2 + 3 / 4) := by positivity
  have hB : 0 < Real.sqrt (r ^ 2 + 1) := by positivity
  unfold RatioOk
  by_cases hr : 0 ≤ r
  · simp only [hr, true_or, true_iff, abs_of_nonneg hr, sub_self, mul_zero]
    exact eps_pos.le
  · have hr' : |r| = -r := abs_of_neg (not_le.1 hr)
    simp only [hr, false_or]
    have e2 : hu r * hw r * Real.sqrt 3 / 2 * (|r| - r)
        = Real.sqrt 3 * |r| / (Real.sqrt (r ^ 2 + 3 / 4) * Real.sqrt (r ^ 2 + 1)) := by
      rw [hr']; unfold hu hw; field_simp; ring
    rw [e2, div_le_iff₀ (by positivity)]
    rfl

end Ecm

namespace Ecm
open Spec Classical

/-- the name of the hardness variable of each model: a strength for Voce hardening, a dislocation
    density otherwise -/
def hardnessName : Case → String
  | .fccA | .fccAH | .bccB | .bccBH => "h"
  | .fccB | .bccA | .hcpA => "rho_dd"

/-- the description given by the kinetics of each model -/
theorem case_info (c : Case) (S : Solver 1) (kl : List ℝ) (hk : kl.length = c.type.kinN)
    {k : Kin c.type.nslip c.type.nH} {info : List HistEntry} (hK : c.type.setKin S kl = .ok (k, info)) :
    info = [⟨hardnessName c, kl.getLastD 0, true, true⟩] := by
  cases c
  case fccA | bccB =>
    obtain ⟨a, b, c, d, e, f, g, i, j, rfl⟩ := length_eq_nine hk
    cases hK; rfl
  case fccAH | bccBH =>
    obtain ⟨a, b, c, d, e, f, g, i, j, k, rfl⟩ := length_eq_ten hk
    cases hK; rfl
  case fccB =>
    obtain ⟨k', rfl, h1, h2, h3, h4⟩ := KMBalD.exists_getParams false false false false 1 kl hk
    have e := KMBalD.setParams_getParams k'
    change Out.bind (KMBalD.setParams false false false false 1 k'.getParams)
      (fun k => Out.ok (k.kin S 12, k.histInfo)) = Out.ok (k, info) at hK
    rw [h1, h2, h3, h4] at e
    rw [e] at hK
    simp only [Out.bind, Bool.false_eq_true, false_imp_iff, if_true] at hK
    rw [← (Prod.mk.inj (Out.ok.inj hK)).2]; simp [KMBalD.histInfo, KMBalD.getParams, hardnessName]
  case bccA =>
    obtain ⟨k', rfl, h1, h2, h3, h4⟩ := KMBalD.exists_getParams true false false false 1 kl hk
    have e := KMBalD.setParams_getParams k'
    change Out.bind (KMBalD.setParams true false false false 1 k'.getParams)
      (fun k => Out.ok (k.kin S 12, k.histInfo)) = Out.ok (k, info) at hK
    rw [h1, h2, h3, h4] at e
    rw [e] at hK
    simp only [Out.bind, Bool.false_eq_true, false_imp_iff, if_true] at hK
    rw [← (Prod.mk.inj (Out.ok.inj hK)).2]; simp [KMBalD.histInfo, KMBalD.getParams, hardnessName]
  case hcpA =>
    obtain ⟨k', rfl, h1, h2, h3, h4⟩ := KMBalD.exists_getParams true true true true 24 kl hk
    have e := KMBalD.setParams_getParams k'
    change Out.bind (KMBalD.setParams true true true true 24 k'.getParams)
      (fun k => Out.ok (k.kin S 24, k.histInfo)) = Out.ok (k, info) at hK
    rw [h1, h2, h3, h4] at e
    rw [e] at hK
    split_ifs at hK
    · rw [← (Prod.mk.inj (Out.ok.inj hK)).2]; simp [KMBalD.histInfo, KMBalD.getParams, hardnessName]
    · cases hK
    · cases hK

/-- names in a history description -/
theorem histDesc_names (info : List HistEntry) (n : ℕ) :
    (histDesc info n).map HistEntry.name =
      ["shrate_eff", "shr_eff", "flow_str", "n_feval"] ++ (List.range 5).map (fun i => "t" ++ toString (i + 1))
      ++ (List.range 4).map (fun i => "quat_" ++ toString (i + 1)) ++ info.map HistEntry.name
      ++ (List.range n).map (fun i => "shrate_" ++ toString (i + 1)) := by
  simp only [histDesc, List.map_append, List.map_map, List.map_cons, List.map_nil]
  rfl

/-- calls without a completion leave `complete` as it is -/
theorem calls_complete {T : MType} (S : Solver 1) (cs : List Call) :
    ∀ (m m' : MM T), MM.calls S m cs = .ok m' → Call.complete ∉ cs → m'.complete = m.complete := by
  induction cs with
  | nil => intro m m' h _; cases h; rfl
  | cons c cs ih =>
    intro m m' h hn
    obtain ⟨m1, h1, h2⟩ := Out.bind_ok h
    have hc : m1.complete = m.complete := by
      cases c with
      | complete => exact absurd (List.mem_cons_self ..) hn
      | init o p s =>
        have e := (init_complete S m o p s).1
        simp only [MM.call] at h1
        split at h1
        · exact absurd h1 (by simp)
        · rename_i _ _ _ heq; cases h1; rw [heq] at e; exact e
    rw [ih m1 m' h2 (fun hc => hn (List.mem_cons_of_mem _ hc)), hc]

/-- calls of which no initialisation has the right counts leave density, equation of state and
    history description as they are; completion is not possible without an equation of state -/
theorem calls_no_init {T : MType} (S : Solver 1) (cs : List Call)
    (hw : ∀ o p s, Call.init o p s ∈ cs → p.length ≠ T.nParams ∨ o.length ≠ 0 ∨ 1 < s.length) :
    ∀ (m : MM T), m.eos = none →
      (Call.complete ∈ cs → ∃ w, MM.calls S m cs = .undef w) ∧
      ∀ m', MM.calls S m cs = .ok m' →
        m'.rho0 = m.rho0 ∧ m'.rhv = m.rhv ∧ m'.eos = none ∧ m'.complete = m.complete := by
  induction cs with
  | nil => intro m he; exact ⟨by simp, fun m' h => by cases h; exact ⟨rfl, rfl, he, rfl⟩⟩
  | cons c cs ih =>
    intro m he
    cases c with
    | complete =>
      have e : MM.calls S m (Call.complete :: cs) = .undef "bulk modulus read before it is set" := by
        simp [MM.calls, MM.call, MM.setComplete, he, Out.bind]
      exact ⟨fun _ => ⟨_, e⟩, fun m' h => by rw [e] at h; cases h⟩
    | init o p s =>
      obtain ⟨msg, e⟩ := init_wrong_counts S m o p s (hw o p s (List.mem_cons_self ..))
      have e2 : MM.calls S m (Call.init o p s :: cs)
          = MM.calls S { m with opts := o, pars := p, strs := s } cs := by
        simp [MM.calls, MM.call, e, Out.bind]
      have := ih (fun o' p' s' h => hw o' p' s' (List.mem_cons_of_mem _ h))
        { m with opts := o, pars := p, strs := s } he
      rw [e2]
      exact ⟨fun h => this.1 (by simpa using h), fun m' h => this.2 m' h⟩

theorem km_accepts (ga p q ss : Bool) {nV : ℕ} (k : KMBalD nV) (h1 : k.withGA = ga) (h2 : k.pOne = p)
    (h3 : k.qOne = q) (h4 : k.perSS = ss) (hp : p = true → k.p = 1) (hq : q = true → k.q = 1) :
    KMBalD.setParams ga p q ss nV k.getParams = .ok k := by
  subst h1 h2 h3 h4
  rw [KMBalD.setParams_getParams, if_pos hp, if_pos hq]

theorem kinKM_eq {ga p q ss : Bool} {nV : ℕ} [NeZero nV] {k : KMBalD nV}
    (h : KMBalD.setParams ga p q ss nV k.getParams = .ok k) (S : Solver 1) (n : ℕ) :
    kinKM ga p q ss nV n S k.getParams = .ok (k.kin S n, k.histInfo) := by
  rw [kinKM, h]; rfl

/-- failing initialisations alone never lead to undefined behaviour -/
theorem calls_no_init_ok {T : MType} (S : Solver 1) (cs : List Call)
    (hw : ∀ o p s, Call.init o p s ∈ cs → p.length ≠ T.nParams ∨ o.length ≠ 0 ∨ 1 < s.length)
    (hc : Call.complete ∉ cs) : ∀ m : MM T, ∃ m', MM.calls S m cs = .ok m' := by
  induction cs with
  | nil => intro m; exact ⟨m, rfl⟩
  | cons c cs ih =>
    intro m
    cases c with
    | complete => exact absurd (List.mem_cons_self ..) hc
    | init o p s =>
      obtain ⟨msg, e⟩ := init_wrong_counts S m o p s (hw o p s (List.mem_cons_self ..))
      obtain ⟨m', h⟩ := ih (fun o' p' s' h => hw o' p' s' (List.mem_cons_of_mem _ h))
        (fun h => hc (List.mem_cons_of_mem _ h)) { m with opts := o, pars := p, strs := s }
      refine ⟨m', ?_⟩
      simp only [MM.calls, MM.call, e, Out.bind]
      exact h

end Ecm
