/- Helper lemmas for the kinetics class with one strength per slip system. -/
import Verif.Model.AnisoVoce
import Verif.Lemmas.Params
import Verif.Lemmas.Wrap
import Verif.Lemmas.Rounding
import Verif.Props.Runs

namespace Ecm
open Props Spec

theorem AnisoVoce.setParams_linear {n : ℕ} (k : AnisoVoce n) (hk : k.base.nonlinear = false)
    (h1 : k.base.xmprime = 1) (h2 : k.base.tausi = 0) :
    AnisoVoce.setParams false n k.getParams = .ok k := by
  have hl : k.getParams.length = AnisoVoce.nParams false n := by
    simp [AnisoVoce.getParams, AnisoVoce.nParams]; omega
  unfold AnisoVoce.setParams Rd.on
  simp only [Rd.bind_app, assertUsed, hl]
  simp only [AnisoVoce.getParams, List.cons_append, List.nil_append, rd_cons, Out.bind,
    rdN_ofFn, Bool.false_eq_true, if_false, Rd.pure_app]
  obtain ⟨⟨b1, b2, b3, b4, b5, b6, b7, b8, b9, b10, b11⟩, t⟩ := k
  simp only at hk h1 h2
  subst hk h1 h2
  simp [AnisoVoce.nParams]

/-- the law of all systems in terms of the law of a system, linear hardening -/
theorem AnisoVoce.getSdotN_linear {n : ℕ} (k : AnisoVoce n) (hk : k.base.nonlinear = false) (gdot : Vec n)
    (h : Vec n) :
    ∃ D, k.base.getSdotN k.tausi (k.base.getEvolVals gdot) h
      = some (fun i => voceRate k.base.h0 (k.tausi i)
          (voceSat k.base.taus0 k.base.gamss0 k.base.xms (∑ j, |gdot j|)) (∑ j, |gdot j|) (h i), D) := by
  have key : ∀ i, ∃ d, (k.system i).getSdot1 (k.base.getEvolVals gdot) (h i)
      = some (voceRate k.base.h0 (k.tausi i)
          (voceSat k.base.taus0 k.base.gamss0 k.base.xms (∑ j, |gdot j|)) (∑ j, |gdot j|) (h i), d) := by
    intro i
    have := C27_law (k.system i) hk gdot (h i)
    have e : (k.system i).getEvolVals gdot = k.base.getEvolVals gdot := rfl
    rw [e] at this
    obtain ⟨a, ha, hb⟩ := Option.map_eq_some_iff.1 this
    exact ⟨a.2, ha.trans (congrArg some (Prod.ext hb rfl))⟩
  choose d hd using key
  refine ⟨fun i j => if i = j then d i else 0, ?_⟩
  unfold Voce.getSdotN
  have e : ∀ i, ({ k.base with tausi := k.tausi i } : Voce).getSdot1 (k.base.getEvolVals gdot) (h i) = _ := hd
  rw [if_pos (fun i => by rw [e i]; simp)]
  congr 2
  · funext i; rw [e i]; rfl
  · funext i j; rw [e i]; rfl

/-- a model whose kinetics describes another number of strengths than it keeps cannot be initialised -/
theorem init_mismatch {T : MType} (S : Solver 1) (m : MM T) (opts : List ℤ) (pars : List ℝ)
    (strs : List String) (hT : ∀ l k, T.setKin S l = .ok k → k.2.length ≠ T.nH) :
    (m.initFromParams S opts pars strs).2 ≠ .ok () := by
  by_cases h1 : pars.length = T.nParams
  swap
  · unfold MM.initFromParams
    simp [h1]
  by_cases h2 : opts.length = 0
  swap
  · unfold MM.initFromParams
    simp only [ne_eq, h1, h2, not_true_eq_false, not_false_eq_true, if_true, if_false]
    simp
  by_cases h3 : strs.length ≤ 1
  swap
  · unfold MM.initFromParams
    simp only [ne_eq, h1, h2, not_true_eq_false, if_false, if_pos (not_le.1 h3)]
    simp
  obtain rfl := List.length_eq_zero_iff.1 h2
  obtain ⟨rho0, cvav, tol, gamma, ec0, gl, el, kl, rfl, hg, he, hk⟩ := exists_parVec (T := T) pars h1
  rw [init_outcome S m rho0 cvav tol gamma ec0 gl el kl strs hg he hk h3]
  cases T.setGeom gl with
  | fail s => simp [Out.bind]
  | undef s => simp [Out.bind]
  | ok g =>
    simp only [Out.bind]
    cases T.setEl el with
    | fail s => simp [Out.bind]
    | undef s => simp [Out.bind]
    | ok e =>
      simp only [Out.bind]
      cases hK : T.setKin S kl with
      | fail s => simp [Out.bind]
      | undef s => simp [Out.bind]
      | ok kk =>
        simp only [Out.bind]
        cases e.getBulkMod with
        | fail s => simp
        | undef s => simp
        | ok B =>
          simp only
          rw [if_neg (hT kl kk hK)]
          simp

end Ecm
