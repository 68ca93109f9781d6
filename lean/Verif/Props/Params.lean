/-
  C40: parameters read back are the parameters given.
-/
import Verif.Lemmas.Wrap

namespace Ecm.Props
open Ecm Classical

/-- C40 (model): whatever the outcome, the model returns exactly the options, parameters and strings of
    the last initialisation -/
theorem C40_model {T : MType} (S : Solver 1) (m : MM T) (opts : List ℤ) (pars : List ℝ)
    (strs : List String) :
    (m.initFromParams S opts pars strs).1.getParams = (opts, pars, strs) :=
  init_stores S m opts pars strs

/-- C40 (model): completing the model does not change them -/
theorem C40_complete {T : MType} (m m' : MM T) (h : m.setComplete = .ok m') :
    m'.getParams = m.getParams := by
  unfold MM.setComplete at h
  split at h
  · exact absurd h (by simp)
  · cases h; rfl

/-- C40 (power law, linear Voce hardening): every vector of nine numbers is accepted, is written back
    unchanged, and builds the same kinetics again -/
theorem C40_voce (l : List ℝ) (h : l.length = 9) :
    ∃ k, Voce.setParams false l = .ok k ∧ k.getParams = l ∧ Voce.setParams false k.getParams = .ok k := by
  obtain ⟨a, b, c, d, e, f, g, i, j, rfl⟩ := length_eq_nine h
  exact ⟨_, rfl, rfl, rfl⟩

/-- C40 (power law, nonlinear Voce hardening), refuted: for every accepted vector of ten numbers one
    number is missing in what is written back, and using the written vector again reads behind its end -/
theorem C40_refuted_voce_nonlinear (l : List ℝ) (h : l.length = 10) :
    ∃ k, Voce.setParams true l = .ok k ∧ k.getParams.length = 9 ∧
      k.getParams = l.take 6 ++ l.drop 7 ∧
      Voce.setParams true k.getParams = .undef "read behind the end of the parameters" := by
  obtain ⟨a, b, c, d, e, f, g, i, j, k, rfl⟩ := length_eq_ten h
  exact ⟨_, rfl, rfl, rfl, rfl⟩

/-- C40 (power law, nonlinear Voce hardening), refuted: two different kinetics are written as the same
    vector, so that the vector cannot determine the kinetics -/
theorem C40_refuted_voce_not_injective :
    ∃ (l₁ l₂ : List ℝ) (k₁ k₂ : Voce), Voce.setParams true l₁ = .ok k₁ ∧ Voce.setParams true l₂ = .ok k₂ ∧
      k₁.xmprime ≠ k₂.xmprime ∧ k₁.getParams = k₂.getParams :=
  ⟨[1, 1, 1, 1, 1, 1, 1, 1, 1, 1], [1, 1, 1, 1, 1, 1, 2, 1, 1, 1], _, _, rfl, rfl,
    by norm_num, rfl⟩

/-- C40 (dislocation density kinetics): every vector of the right length is written back unchanged
    when it is accepted, and builds the same kinetics again -/
theorem C40_km (withGA pOne qOne perSS : Bool) (nV : ℕ) (l : List ℝ) (h : l.length = 13 + 3 * nV)
    (k : KMBalD nV) (hk : KMBalD.setParams withGA pOne qOne perSS nV l = .ok k) :
    k.getParams = l ∧ KMBalD.setParams withGA pOne qOne perSS nV k.getParams = .ok k := by
  obtain ⟨k', rfl, rfl, rfl, rfl, rfl⟩ := KMBalD.exists_getParams withGA pOne qOne perSS nV l
    (by rw [h, KMBalD.nParams]; omega)
  have e := KMBalD.setParams_getParams k'
  have hk' := hk
  rw [e] at hk
  split_ifs at hk
  cases hk
  exact ⟨rfl, hk'⟩

/-- C40 (dislocation density kinetics): acceptance; the only condition is that exponents that the
    template assumes to be one are one -/
theorem C40_km_accepts (withGA pOne qOne perSS : Bool) (nV : ℕ) (l : List ℝ)
    (h : l.length = 13 + 3 * nV) (hp : pOne = true → l.getD (3 + nV) 0 = 1)
    (hq : qOne = true → l.getD (4 + nV) 0 = 1) :
    ∃ k, KMBalD.setParams withGA pOne qOne perSS nV l = .ok k := by
  obtain ⟨k, rfl, rfl, rfl, rfl, rfl⟩ := KMBalD.exists_getParams withGA pOne qOne perSS nV l
    (by rw [h, KMBalD.nParams]; omega)
  rw [KMBalD.setParams_getParams]
  have ep : k.getParams.getD (3 + nV) 0 = k.p := by
    simp only [KMBalD.getParams, List.append_assoc, List.getD_eq_getElem?_getD]
    rw [List.getElem?_append_right (by simp; omega), List.getElem?_append_right (by simp; omega)]
    simp only [List.length_cons, List.length_nil, List.length_ofFn]
    rw [show 3 + nV - (0 + 1 + 1) - nV = 1 by omega]; rfl
  have eq : k.getParams.getD (4 + nV) 0 = k.q := by
    simp only [KMBalD.getParams, List.append_assoc, List.getD_eq_getElem?_getD]
    rw [List.getElem?_append_right (by simp; omega), List.getElem?_append_right (by simp; omega)]
    simp only [List.length_cons, List.length_nil, List.length_ofFn]
    rw [show 4 + nV - (0 + 1 + 1) - nV = 2 by omega]; rfl
  rw [ep] at hp
  rw [eq] at hq
  exact ⟨k, by rw [if_pos hp, if_pos hq]⟩

/-- C40 (elasticity) -/
theorem C40_elasticity :
    (∀ l : List ℝ, l.length = 3 → ∃ e, Elast.setCubic l = .ok e ∧ e.getParams = l) ∧
    (∀ l : List ℝ, l.length = 6 → ∃ e, Elast.setHexag l = .ok e ∧ e.getParams = l) := by
  constructor
  · intro l h
    obtain ⟨a, b, c, rfl⟩ := List.length_eq_three.1 h
    exact ⟨_, rfl, rfl⟩
  · intro l h
    obtain ⟨a, l, rfl, h1⟩ := exists_cons l (by omega)
    obtain ⟨b, l, rfl, h1⟩ := exists_cons l (by simp at h; omega)
    obtain ⟨c, l, rfl, h1⟩ := exists_cons l (by simp at h; omega)
    obtain ⟨d, e, f, rfl⟩ := List.length_eq_three.1 (show l.length = 3 by simp at h; omega)
    exact ⟨_, rfl, rfl⟩

/-- C40 (equation of state) -/
theorem C40_eos (iso : Bool) (l : List ℝ) (h : l.length = 5) :
    ∃ s, Eos.setParams iso l = .ok s ∧ s.getParams = l := by
  obtain ⟨a, l, rfl, h1⟩ := exists_cons l (by omega)
  obtain ⟨b, l, rfl, h1⟩ := exists_cons l (by simp at h; omega)
  obtain ⟨d, e, f, rfl⟩ := List.length_eq_three.1 (show l.length = 3 by simp at h; omega)
  exact ⟨_, rfl, rfl⟩

/-- C40 (slip geometry with an axial ratio) -/
theorem C40_hcp (l : List ℝ) (h : l.length = 1) (g : SlipGeom 24) (r : ℝ)
    (hg : hcpSetParams l = .ok (g, r)) : hcpGetParams r = l ∧ slipGeomHCP r = .ok g := by
  obtain ⟨a, rfl⟩ := List.length_eq_one_iff.1 h
  rw [hcpSetParams_eq] at hg
  obtain ⟨g', h1, h2⟩ := Out.bind_ok hg
  cases h2
  exact ⟨rfl, h1⟩

/-- the hypotheses are met: a linear Voce vector -/
example : ∃ k, Voce.setParams false [75, 0.1, 1, 3.75, 0.75, 9.37, 0.5, 50, 0.75] = .ok k ∧
    k.getParams = [75, 0.1, 1, 3.75, 0.75, 9.37, 0.5, 50, 0.75] :=
  let ⟨k, h, g, _⟩ := C40_voce [75, 0.1, 1, 3.75, 0.75, 9.37, 0.5, 50, 0.75] rfl
  ⟨k, h, g⟩

/-- the hypotheses are met: a dislocation density vector with a template that assumes p = q = 1 -/
example : ∃ k, KMBalD.setParams true true true false 1
    [1, 300, 20, 0, 1, 1, 1, 2, 3, 4, 5, 6, 7, 8, 9, 10] = .ok k ∧
    k.getParams = [1, 300, 20, 0, 1, 1, 1, 2, 3, 4, 5, 6, 7, 8, 9, 10] := by
  obtain ⟨k, hk⟩ := C40_km_accepts true true true false 1
    [1, 300, 20, 0, 1, 1, 1, 2, 3, 4, 5, 6, 7, 8, 9, 10] rfl (by simp) (by simp)
  exact ⟨k, hk, (C40_km _ _ _ _ _ _ rfl k hk).1⟩

/-- C43 (dislocation density kinetics): the position of every parameter in the vector -/
theorem C43_km_order (withGA pOne qOne perSS : Bool) (nV : ℕ) (c1 go s : Vec nV)
    (mu tK tauA p q gamWo gamRo wrD k1 k2o ninv gammaO hdn : ℝ) (hp : pOne = true → p = 1)
    (hq : qOne = true → q = 1) :
    KMBalD.setParams withGA pOne qOne perSS nV
      ([mu, tK] ++ List.ofFn c1 ++ [tauA, p, q, gamWo, gamRo, wrD] ++ List.ofFn go ++ List.ofFn s
        ++ [k1, k2o, ninv, gammaO, hdn]) =
      .ok { withGA := withGA, pOne := pOne, qOne := qOne, perSS := perSS, muRef := mu, tKRef := tK,
            c1 := c1, tauA := tauA, p := p, q := q, gamWo := gamWo, gamRo := gamRo, wrD := wrD,
            go := go, s := s, k1 := k1, k2o := k2o, ninv := ninv, gammaO := gammaO,
            hdnInit := hdn } := by
  have e := KMBalD.setParams_getParams (
          { withGA := withGA, pOne := pOne, qOne := qOne, perSS := perSS,
            muRef := mu, tKRef := tK, c1 := c1, tauA := tauA, p := p, q := q, gamWo := gamWo,
            gamRo := gamRo, wrD := wrD, go := go, s := s, k1 := k1, k2o := k2o, ninv := ninv,
            gammaO := gammaO, hdnInit := hdn } : KMBalD nV)
  rw [if_pos hp, if_pos hq] at e
  rw [← e]
  congr 1
  simp [KMBalD.getParams]

example : (true = true → (1 : ℝ) = 1) ∧ (false = true → (2 : ℝ) = 1) := by simp

end Ecm.Props
