/- Helper lemmas for reading parameter vectors. -/
import Verif.Model.Params
import Verif.Lemmas.Hcp

namespace Ecm
open Classical

theorem Out.bind_eq {α β : Type} (x : Out α) (f : α → Out β) : (x >>= f) = Out.bind x f := rfl
theorem Out.pure_eq {α : Type} (x : α) : (pure x : Out α) = .ok x := rfl

theorem Rd.bind_app {α β : Type} (r : Rd α) (f : α → Rd β) (l : List ℝ) :
    (r >>= f) l = Out.bind (r l) fun p => f p.1 p.2 := rfl
theorem Rd.pure_app {α : Type} (a : α) (l : List ℝ) : (pure a : Rd α) l = Out.ok (a, l) := rfl
theorem rd_cons (x : ℝ) (l : List ℝ) : rd (x :: l) = Out.ok (x, l) := rfl
theorem rd_nil : rd [] = Out.undef "read behind the end of the parameters" := rfl

theorem rdN_ofFn {k : ℕ} (v : Vec k) (l : List ℝ) : rdN k (List.ofFn v ++ l) = Out.ok (v, l) := by
  induction k with
  | zero => simp [rdN, Rd.pure_app]; exact funext fun i => i.elim0
  | succ k ih =>
    rw [List.ofFn_succ, List.cons_append]
    simp only [rdN, Rd.bind_app, rd_cons, Out.bind, ih, Rd.pure_app]
    congr 2
    exact Fin.cons_self_tail v

/-- a list with at least `k` entries starts with a `k`-vector -/
theorem exists_ofFn_append (k : ℕ) (l : List ℝ) (h : k ≤ l.length) :
    ∃ (v : Vec k) (r : List ℝ), l = List.ofFn v ++ r ∧ r.length = l.length - k := by
  refine ⟨fun i => l[i.1]'(by omega), l.drop k, ?_, by simp⟩
  have : List.ofFn (fun i : Fin k => l[i.1]'(by omega)) = l.take k := by
    apply List.ext_getElem
    · simp; omega
    · intro i h1 h2; simp
  rw [this, List.take_append_drop]

theorem exists_cons (l : List ℝ) (h : 0 < l.length) :
    ∃ (x : ℝ) (r : List ℝ), l = x :: r ∧ r.length = l.length - 1 := by
  cases l with
  | nil => simp at h
  | cons x r => exact ⟨x, r, rfl, by simp⟩

theorem Voce.setParams_lin (mu xm gamW h0 tausi taus0 xms gamss0 hdnInit : ℝ) :
    Voce.setParams false [mu, xm, gamW, h0, tausi, taus0, xms, gamss0, hdnInit]
      = .ok { nonlinear := false, mu := mu, xm := xm, gamW := gamW, h0 := h0, tausi := tausi
              taus0 := taus0, xmprime := 1, xms := xms, gamss0 := gamss0, hdnInit := hdnInit } := rfl

theorem Voce.setParams_nonlin (mu xm gamW h0 tausi taus0 xmprime xms gamss0 hdnInit : ℝ) :
    Voce.setParams true [mu, xm, gamW, h0, tausi, taus0, xmprime, xms, gamss0, hdnInit]
      = .ok { nonlinear := true, mu := mu, xm := xm, gamW := gamW, h0 := h0, tausi := tausi
              taus0 := taus0, xmprime := xmprime, xms := xms, gamss0 := gamss0
              hdnInit := hdnInit } := rfl

theorem Voce.setParams_nonlin_short (mu xm gamW h0 tausi taus0 xms gamss0 hdnInit : ℝ) :
    Voce.setParams true [mu, xm, gamW, h0, tausi, taus0, xms, gamss0, hdnInit]
      = .undef "read behind the end of the parameters" := rfl

theorem length_eq_nine {l : List ℝ} (h : l.length = 9) :
    ∃ a b c d e f g i j, l = [a, b, c, d, e, f, g, i, j] := by
  rcases l with _ | ⟨a, _ | ⟨b, _ | ⟨c, _ | ⟨d, _ | ⟨e, _ | ⟨f, _ | ⟨g, _ | ⟨i, _ | ⟨j, _ | ⟨k, l⟩⟩⟩⟩⟩⟩⟩⟩⟩⟩ <;>
    simp at h
  exact ⟨a, b, c, d, e, f, g, i, j, rfl⟩

theorem length_eq_ten {l : List ℝ} (h : l.length = 10) :
    ∃ a b c d e f g i j k, l = [a, b, c, d, e, f, g, i, j, k] := by
  obtain ⟨a, r, rfl, hr⟩ := exists_cons l (by omega)
  obtain ⟨b, c, d, e, f, g, i, j, k, rfl⟩ := length_eq_nine (l := r) (by simp at h; omega)
  exact ⟨a, b, c, d, e, f, g, i, j, k, rfl⟩

/-- the reading of the parameters of a KMBalD kinetics -/
theorem KMBalD.setParams_getParams {nV : ℕ} (k : KMBalD nV) :
    KMBalD.setParams k.withGA k.pOne k.qOne k.perSS nV k.getParams
      = if (k.pOne = true → k.p = 1) then
          if (k.qOne = true → k.q = 1) then .ok k else .undef "assert(_q == one)"
        else .undef "assert(_p == one)" := by
  have hl : k.getParams.length = KMBalD.nParams nV := by
    simp [KMBalD.getParams, KMBalD.nParams]; omega
  unfold KMBalD.setParams Rd.on
  simp only [Rd.bind_app, assertUsed, hl]
  simp only [KMBalD.getParams, List.append_assoc, List.cons_append, List.nil_append, rd_cons, Out.bind,
    rdN_ofFn, assertRd]
  by_cases hp : (k.pOne = true → k.p = 1)
  · by_cases hq : (k.qOne = true → k.q = 1)
    · simp only [if_pos hp, if_pos hq]
      simp [rd_cons, Out.bind, KMBalD.nParams, Rd.pure_app]
    · simp only [if_pos hp, if_neg hq]
  · simp only [if_neg hp]

/-- every list of the right length is the parameter list of a KMBalD kinetics -/
theorem KMBalD.exists_getParams (withGA pOne qOne perSS : Bool) (nV : ℕ) (l : List ℝ)
    (h : l.length = KMBalD.nParams nV) : ∃ k : KMBalD nV, k.getParams = l ∧ k.withGA = withGA ∧
      k.pOne = pOne ∧ k.qOne = qOne ∧ k.perSS = perSS := by
  unfold KMBalD.nParams at h
  obtain ⟨muRef, l, rfl, h1⟩ := exists_cons l (by omega)
  obtain ⟨tKRef, l, rfl, h2⟩ := exists_cons l (by omega)
  obtain ⟨c1, l, rfl, h3⟩ := exists_ofFn_append nV l (by omega)
  obtain ⟨tauA, l, rfl, h4⟩ := exists_cons l (by omega)
  obtain ⟨p, l, rfl, h5⟩ := exists_cons l (by omega)
  obtain ⟨q, l, rfl, h6⟩ := exists_cons l (by omega)
  obtain ⟨gamWo, l, rfl, h7⟩ := exists_cons l (by omega)
  obtain ⟨gamRo, l, rfl, h8⟩ := exists_cons l (by omega)
  obtain ⟨wrD, l, rfl, h9⟩ := exists_cons l (by omega)
  obtain ⟨go, l, rfl, h10⟩ := exists_ofFn_append nV l (by omega)
  obtain ⟨s, l, rfl, h11⟩ := exists_ofFn_append nV l (by omega)
  obtain ⟨k1, l, rfl, h12⟩ := exists_cons l (by omega)
  obtain ⟨k2o, l, rfl, h13⟩ := exists_cons l (by omega)
  obtain ⟨ninv, l, rfl, h14⟩ := exists_cons l (by omega)
  obtain ⟨gammaO, l, rfl, h15⟩ := exists_cons l (by omega)
  obtain ⟨hdnInit, l, rfl, h16⟩ := exists_cons l (by omega)
  have : l = [] := List.length_eq_zero_iff.1 (by omega)
  subst this
  exact ⟨{ withGA := withGA, pOne := pOne, qOne := qOne, perSS := perSS, muRef := muRef
           tKRef := tKRef, c1 := c1, tauA := tauA, p := p, q := q, gamWo := gamWo, gamRo := gamRo
           wrD := wrD, go := go, s := s, k1 := k1, k2o := k2o, ninv := ninv, gammaO := gammaO
           hdnInit := hdnInit }, by simp [KMBalD.getParams], rfl, rfl, rfl, rfl⟩

theorem Elast.setCubic_eq (a b c : ℝ) : Elast.setCubic [a, b, c] = .ok (.cubic a b c) := rfl
theorem Elast.setHexag_eq (a b c d e f : ℝ) :
    Elast.setHexag [a, b, c, d, e, f] = .ok (.hexag a b c d e f) := rfl

theorem Eos.setParams_eq (iso : Bool) (rho0 bulkMod cvav gamma ec0 : ℝ) :
    Eos.setParams iso [rho0, bulkMod, cvav, gamma, ec0]
      = .ok { isothermal := iso, rho0 := rho0, bulkMod := bulkMod, cvav := cvav, gamma := gamma
              ec0 := ec0 } := rfl

theorem hcpSetParams_eq (r : ℝ) : hcpSetParams [r]
    = Out.bind (slipGeomHCP r) fun g => .ok (g, r) := by
  unfold hcpSetParams Rd.on
  simp only [Rd.bind_app, rd_cons, Out.bind]
  cases slipGeomHCP r <;> simp [assertUsed, Out.bind, Rd.pure_app]

theorem hcp_mpp_abs (r : ℝ) :
    Real.sqrt (1 - hcpNormal r 2 * hcpNormal r 2) = hu r * |r| := by
  have := hu_sq r; have := hu_pos r; have := s3_sq
  rw [show 1 - hcpNormal r 2 * hcpNormal r 2 = (hu r * |r|) ^ 2 by
    rw [mul_pow, sq_abs]; simp [hcpNormal]; nlinarith]
  exact Real.sqrt_sq (by positivity)

/-- the orthogonality check of the HCP geometry for any ratio -/
theorem hcp_check (r : ℝ) :
    (∃ i, idpEpsSqrt < |vecsyadotb (hcpM (hcpNormal r) (hcpNormal r) (hu r * |r|) (hu r * |r|) i)
      (hcpS hcpDirA (hcpDirCA r) (hw r) i)|) ↔ idpEpsSqrt < |hu r * hw r * Real.sqrt 3 / 2 * (|r| - r)| := by
  have e := eps_pos
  have key : ∀ i, vecsyadotb (hcpM (hcpNormal r) (hcpNormal r) (hu r * |r|) (hu r * |r|) i)
      (hcpS hcpDirA (hcpDirCA r) (hw r) i) = 0 ∨
      |vecsyadotb (hcpM (hcpNormal r) (hcpNormal r) (hu r * |r|) (hu r * |r|) i)
      (hcpS hcpDirA (hcpDirCA r) (hw r) i)| = |hu r * hw r * Real.sqrt 3 / 2 * (|r| - r)| := by
    intro i
    generalize |r| = ar
    fin_cases i <;> simp only [hcpM, hcpS, hcpNormal, hcpDirA, hcpDirCA, vecsyadotb,
      Fin.sum_univ_three] <;> first
      | (left; simp; done)
      | (left; simp; ring_nf; done)
      | (left; simp; sqr_ring; done)
      | (right; congr 1; simp; ring_nf; done)
      | (right; rw [← abs_neg]; congr 1; simp; ring_nf; done)
  constructor
  · rintro ⟨i, hi⟩
    rcases key i with h | h
    · rw [h, abs_zero] at hi; linarith
    · rwa [h] at hi
  · intro h
    refine ⟨15, ?_⟩
    have : vecsyadotb (hcpM (hcpNormal r) (hcpNormal r) (hu r * |r|) (hu r * |r|) 15)
      (hcpS hcpDirA (hcpDirCA r) (hw r) 15) = -(hu r * hw r * Real.sqrt 3 / 2 * (|r| - r)) := by
      generalize |r| = ar
      simp [hcpM, hcpS, hcpNormal, hcpDirA, hcpDirCA, vecsyadotb, Fin.sum_univ_three]
      ring
    rwa [this, abs_neg]

end Ecm
