/- Property theorem C99: hardening with one strength per slip system. -/
import Verif.Lemmas.AnisoVoce
import Verif.Lemmas.Wrap
import Verif.Props.TestStep

namespace Ecm.Props
open Ecm Spec
variable {n : ℕ}

/-- the implicit equation for the strength of system `i`: backward Euler for Voce hardening with its own
    initial strength and the slip of all systems together -/
def SystemHardens (k : AnisoVoce n) (dt : ℝ) (gdot hO : Vec n) (i : Fin n) (z : ℝ) : Prop :=
  z - hO i = dt * voceRate k.base.h0 (k.tausi i)
    (voceSat k.base.taus0 k.base.gamss0 k.base.xms (∑ j, |gdot j|)) (∑ j, |gdot j|) z

/-! ### The update of the strengths -/

/-- **C99, equation.** For every system the implicit equation has exactly one solution, between its old
    strength and the saturation strength: the slip of the other systems counts, their strengths do not. -/
theorem C99_solution (k : AnisoVoce n) (hθ : 0 ≤ k.base.h0) (dt : ℝ) (hdt : 0 ≤ dt) (gdot hO : Vec n)
    (i : Fin n) :
    (∃! z, SystemHardens k dt gdot hO i z) ∧
    ∀ z, SystemHardens k dt gdot hO i z →
      min (hO i) (voceSat k.base.taus0 k.base.gamss0 k.base.xms (∑ j, |gdot j|)) ≤ z ∧
      z ≤ max (hO i) (voceSat k.base.taus0 k.base.gamss0 k.base.xms (∑ j, |gdot j|)) := by
  obtain ⟨h1, h2⟩ := C27_solution k.base.h0 (k.tausi i)
    (voceSat k.base.taus0 k.base.gamss0 k.base.xms (∑ j, |gdot j|)) (∑ j, |gdot j|) (hO i) dt hθ
    (Finset.sum_nonneg fun _ _ => abs_nonneg _) hdt
  exact ⟨h1, fun z hz => ⟨(h2 z hz).1, (h2 z hz).2.1⟩⟩

/-- **C99, update.** A successful update with any sound solver puts every strength within the tolerance
    (relative to the larger of the old strength and one) of the solution of its own equation. -/
theorem C99_update (k : AnisoVoce n) (hk : k.base.nonlinear = false) (hθ : 0 ≤ k.base.h0) (S : Solver n)
    (hS : S.Sound) (hO : Vec n) (dt : ℝ) (hdt : 0 ≤ dt) (gdot h' : Vec n) (c : ℕ)
    (hok : k.updateH S hO dt gdot = .ok (h', c)) (i : Fin n) (z : ℝ) (hz : SystemHardens k dt gdot hO i z) :
    |h' i - z| ≤ 1 / 10 ^ 10 * max (hO i) 1 := by
  unfold AnisoVoce.updateH at hok
  split_ifs at hok
  unfold updateHN at hok
  simp only at hok
  split_ifs at hok with hc
  cases hok
  obtain ⟨⟨r, J, hr, hl⟩, -⟩ := hS _ _ _ _ hc
  generalize (S _ (1 / 10 ^ 10) 100 fun _ => 0).x = x at hr
  obtain ⟨D, hD⟩ := k.getSdotN_linear hk gdot fun i => hO i + x i * max (hO i) 1
  simp only [HNProblem.computeRJ, HNProblem.xScale, hD, Option.some.injEq] at hr
  have hri := congrFun (congrArg Prod.fst hr) i
  simp only [HNProblem.resScale, HNProblem.xScale] at hri
  have hxs : 0 < max (hO i) 1 := lt_of_lt_of_le one_pos (le_max_right _ _)
  have hγ : 0 ≤ ∑ j, |gdot j| := Finset.sum_nonneg fun _ _ => abs_nonneg _
  unfold SystemHardens at hz
  generalize hxe : max (hO i) 1 = xs at hri hxs
  generalize hf : voceRate k.base.h0 (k.tausi i)
    (voceSat k.base.taus0 k.base.gamss0 k.base.xms (∑ j, |gdot j|)) (∑ j, |gdot j|) = f at hri hz
  have hfa : Antitone f := hf ▸ voceRate_antitone hθ hγ
  set y := (z - hO i) / xs with hy
  have hyz : hO i + y * xs = z := by rw [hy]; field_simp; ring
  have h0 : (y * xs - f (hO i + y * xs) * dt) * (1 / xs) = 0 := by
    rw [hyz]
    have : y * xs = z - hO i := by rw [hy]; field_simp
    rw [this, hz]; ring
  have hn := resid_near hfa (x := x i) hdt hxs h0
  rw [hri] at hn
  show |hO i + x i * max (hO i) 1 - z| ≤ 1 / 10 ^ 10 * xs
  rw [hxe]
  have e : hO i + x i * xs - z = (x i - y) * xs := by rw [← hyz]; ring
  rw [e, abs_mul, abs_of_pos hxs]
  exact mul_le_mul_of_nonneg_right (hn.trans ((abs_le_vecNorm' r i).trans hl)) hxs.le

/-- **C99, no failure.** A solver that finds solutions where there are some always succeeds. -/
theorem C99_exists (k : AnisoVoce n) (hk : k.base.nonlinear = false) (hθ : 0 ≤ k.base.h0)
    (hg : 0 < k.base.gamss0) (S : Solver n) (hS : Finds S) (hO : Vec n) (dt : ℝ) (hdt : 0 ≤ dt)
    (gdot : Vec n) : ∃ h' c, k.updateH S hO dt gdot = .ok (h', c) := by
  choose z hz using fun i => (C99_solution k hθ dt hdt gdot hO i).1.exists
  let P : HNProblem n :=
    { law := k.base.getSdotN k.tausi (k.base.getEvolVals gdot), hO := hO, dt := dt }
  have hx : (fun i => hO i + (z i - hO i) / max (hO i) 1 * max (hO i) 1) = z := by
    funext i
    have hxs : 0 < max (hO i) 1 := lt_of_lt_of_le one_pos (le_max_right _ _)
    rw [div_mul_cancel₀ _ hxs.ne']; ring
  obtain ⟨D, hD⟩ := k.getSdotN_linear hk gdot z
  have hc : (S P.computeRJ (1 / 10 ^ 10) 100 fun _ => 0).converged = true := by
    refine hS.found _ _ _ _ ⟨fun i => (z i - hO i) / max (hO i) 1, fun _ => 0,
      fun i j => D i j * (-max (hO j) 1 * P.resScale i * dt) + if i = j then 1 else 0, ?_, ?_⟩
    · simp only [HNProblem.computeRJ, HNProblem.xScale, P, hx, hD, Option.some.injEq]
      refine Prod.ext ?_ rfl
      funext i
      have hxs : 0 < max (hO i) 1 := lt_of_lt_of_le one_pos (le_max_right _ _)
      have := hz i
      unfold SystemHardens at this
      simp only
      rw [div_mul_cancel₀ _ hxs.ne', this]
      ring
    · show Real.sqrt _ ≤ _
      simp [dot]
  unfold AnisoVoce.updateH
  rw [if_neg (not_le.2 hg)]
  unfold updateHN
  simp only
  rw [if_pos hc]
  exact ⟨_, _, rfl⟩

/-- **C99, differences fade.** Two systems with the same initial strength keep their order, and the
    difference of their strengths shrinks in every step by the factor `1 + dt θ γ / (sat - s0)`. -/
theorem C99_fade (k : AnisoVoce n) (dt : ℝ) (gdot hO : Vec n) (i j : Fin n) (y z : ℝ)
    (ht : k.tausi i = k.tausi j)
    (hs : k.tausi i < voceSat k.base.taus0 k.base.gamss0 k.base.xms (∑ j, |gdot j|))
    (hy : SystemHardens k dt gdot hO i y) (hz : SystemHardens k dt gdot hO j z) :
    (y - z) * (1 + dt * k.base.h0 * (∑ j, |gdot j|)
      / (voceSat k.base.taus0 k.base.gamss0 k.base.xms (∑ j, |gdot j|) - k.tausi i)) = hO i - hO j := by
  unfold SystemHardens voceRate at hy hz
  rw [← ht, if_neg (not_le.2 hs)] at hz
  rw [if_neg (not_le.2 hs)] at hy
  generalize voceSat k.base.taus0 k.base.gamss0 k.base.xms (∑ j, |gdot j|) = s at *
  have hp : s - k.tausi i ≠ 0 := sub_ne_zero.2 hs.ne'
  field_simp at hy hz ⊢
  linarith

/-- **C99, uniform strengths.** If all systems start with the same strength and have the same initial
    strength, the solution of the equation of the class with one strength solves all equations. -/
theorem C99_uniform (k : AnisoVoce n) (s0 dt : ℝ) (gdot : Vec n) (g z : ℝ) (ht : ∀ i, k.tausi i = s0)
    (hz : z - g = dt * voceRate k.base.h0 s0
      (voceSat k.base.taus0 k.base.gamss0 k.base.xms (∑ j, |gdot j|)) (∑ j, |gdot j|) z) (i : Fin n) :
    SystemHardens k dt gdot (fun _ => g) i z := by
  unfold SystemHardens
  rw [ht i]
  exact hz

/-! ### The slip law -/

/-- **C99, strengths used.** The strengths are usable exactly when all are positive; then the reference
    strength of the equations is their mean, which lies between the smallest and the largest. -/
theorem C99_vals (hn : 0 < n) (k : AnisoVoce n) (S : Solver n) (p tK : ℝ) (h : Vec n) :
    ((∃ v, (k.kin S).getVals p tK h = .ok v) ↔ ∀ i, 0 < h i) ∧
    ∀ (v : Vec n) (m : ℝ), (k.kin S).getVals p tK h = .ok (v, m) →
      v = h ∧ (n : ℝ) * m = ∑ i, h i ∧ 0 < m ∧ (∃ i, h i ≤ m) ∧ ∃ i, m ≤ h i := by
  have hn' : (0 : ℝ) < n := by exact_mod_cast hn
  have hne : (Finset.univ : Finset (Fin n)).Nonempty := ⟨⟨0, hn⟩, Finset.mem_univ _⟩
  constructor
  · constructor
    · rintro ⟨v, hv⟩
      by_contra hh
      have : (k.kin S).getVals p tK h = .undef "assert(vals[iSlip] > zero)" := if_neg hh
      rw [this] at hv
      cases hv
    · intro hh
      exact ⟨_, if_pos hh⟩
  · intro v m hv
    have hh : ∀ i, 0 < h i := by
      by_contra hh
      have : (k.kin S).getVals p tK h = .undef "assert(vals[iSlip] > zero)" := if_neg hh
      rw [this] at hv
      cases hv
    have e : (k.kin S).getVals p tK h = .ok (h, (∑ i, h i) / (n : ℝ)) := if_pos hh
    rw [e] at hv
    have hv := Out.ok.inj hv
    have h1 : h = v := congrArg Prod.fst hv
    have h2 : (∑ i, h i) / (n : ℝ) = m := congrArg Prod.snd hv
    have h3 : (n : ℝ) * m = ∑ i, h i := by rw [← h2]; field_simp
    have hc : ∑ _i : Fin n, m = (n : ℝ) * m := by simp
    refine ⟨h1.symm, h3, ?_, ?_, ?_⟩
    · rw [← h2]
      exact div_pos (Finset.sum_pos (fun i _ => hh i) hne) hn'
    · obtain ⟨i, -, hi⟩ := Finset.exists_le_of_sum_le hne (f := h) (g := fun _ => m)
        (by rw [hc, h3])
      exact ⟨i, hi⟩
    · obtain ⟨i, -, hi⟩ := Finset.exists_le_of_sum_le hne (f := fun _ => m) (g := h)
        (by rw [hc, h3])
      exact ⟨i, hi⟩

/-- **C99, same equations.** With equal strengths the equations of a step are those of the class with one
    strength. -/
theorem C99_problem (hn : 0 < n) (k : AnisoVoce n) (s0 : ℝ) (S : Solver n) (S1 : Solver 1) (geom : SlipGeom n)
    (el : Elast) (dt detV eV p tK g : ℝ) (eN : Vec 5) (cN : Vec 4) (dSm : Vec 5) (wSm : Vec 3) :
    Updst.make geom (k.kin S) el dt detV eV p tK (fun _ => g) eN cN dSm wSm = .undef "assert(vals[iSlip] > zero)" ∧
    Updst.make geom (Voce.kin { k.base with tausi := s0 } S1 n) el dt detV eV p tK (fun _ => g) eN cN dSm wSm
      = .undef "assert(vals[0] > zero)" ∨
    Updst.make geom (k.kin S) el dt detV eV p tK (fun _ => g) eN cN dSm wSm =
      Updst.make geom (Voce.kin { k.base with tausi := s0 } S1 n) el dt detV eV p tK (fun _ => g) eN cN dSm wSm := by
  unfold Updst.make
  by_cases h1 : dt = 0
  · right; rw [if_pos h1, if_pos h1]
  rw [if_neg h1, if_neg h1]
  by_cases h2 : detV ≤ 0
  · right; rw [if_pos h2, if_pos h2]
  rw [if_neg h2, if_neg h2]
  have hn' : (n : ℝ) ≠ 0 := by exact_mod_cast hn.ne'
  by_cases h3 : 0 < g
  · right
    have e1 : (k.kin S).getVals p tK (fun _ => g) = .ok ((fun _ => g : Vec n), g) := by
      have : (k.kin S).getVals p tK (fun _ => g) = .ok ((fun _ => g : Vec n), (∑ _i : Fin n, g) / (n : ℝ)) :=
        if_pos fun _ => h3
      rw [this]
      congr 2
      simp [mul_div_cancel_left₀ _ hn']
    have e2 : (Voce.kin { k.base with tausi := s0 } S1 n).getVals p tK (fun _ => g) = .ok (g, g) := if_pos h3
    rw [e1, e2]
    rfl
  · left
    have e1 : (k.kin S).getVals p tK (fun _ => g) = .undef "assert(vals[iSlip] > zero)" :=
      if_neg fun h => h3 (h ⟨0, hn⟩)
    have e2 : (Voce.kin { k.base with tausi := s0 } S1 n).getVals p tK (fun _ => g)
      = .undef "assert(vals[0] > zero)" := if_neg h3
    rw [e1, e2]
    exact ⟨rfl, rfl⟩

/-- the memory of two points agrees in everything but the strengths -/
structure SameBut (a : Mem n n) (b : Mem 1 n) : Prop where
  eInt : a.eInt = b.eInt
  stress : a.stress = b.stress
  tkelv : a.tkelv = b.tkelv
  sdd : a.sdd = b.sdd
  mtan : a.mtan = b.mtan
  e : (histOf a).e = (histOf b).e
  q : (histOf a).q = (histOf b).q
  gdot : (histOf a).gdot = (histOf b).gdot
  shrateEff : (histOf a).shrateEff = (histOf b).shrateEff
  shrEff : (histOf a).shrEff = (histOf b).shrEff
  flowStr : (histOf a).flowStr = (histOf b).flowStr
  nFEval : (histOf a).nFEval = (histOf b).nFEval

/-- two updates end in the same way, with memory that agrees in everything but the strengths -/
def EndAlike : Res (Mem n n) → Res (Mem 1 n) → Prop
  | .ok a, .ok b => SameBut a b
  | .fail s a, .fail t b => s = t ∧ SameBut a b
  | .undef _, .undef _ => True
  | _, _ => False

/-- **C99, same response.** Two points that agree in everything but the strengths, and whose updated
    strengths are all equal to `g`, get the same response from the two classes: both succeed, fail or have
    no usable numbers, with the same stress, energy, temperature, moduli, tangent and history. -/
theorem C99_response (hn : 0 < n) (k : AnisoVoce n) (s0 : ℝ) (S : Solver n) (S1 : Solver 1) (geom : SlipGeom n)
    (el : Elast) (eos : Eos) (X : Ext) (inp : Inputs) (a : Mem n n) (b : Mem 1 n) (hab : SameBut a b)
    (g : ℝ) (c d : ℕ)
    (hua : k.updateH S (histOf a).h inp.dt (histOf a).gdot = .ok (fun _ => g, c))
    (hub : ({ k.base with tausi := s0 } : Voce).updateH S1 (histOf b).h inp.dt (histOf b).gdot
      = .ok (fun _ => g, d)) :
    EndAlike (getResponseSngl X { geom := geom, kin := k.kin S, el := el, eos := eos } inp a)
      (getResponseSngl X
        { geom := geom, kin := Voce.kin { k.base with tausi := s0 } S1 n, el := el, eos := eos } inp b) := by
  set Ma : Material n n := { geom := geom, kin := k.kin S, el := el, eos := eos } with hMa
  set Mb : Material n 1 :=
    { geom := geom, kin := Voce.kin { k.base with tausi := s0 } S1 n, el := el, eos := eos } with hMb
  have hE : Step.eosUpdate Ma inp a = Step.eosUpdate Mb inp b := by
    unfold Step.eosUpdate; rw [hab.eInt, hab.stress]
  have hT : Step.tK Ma inp a = Step.tK Mb inp b := by
    unfold Step.tK; rw [hab.eInt]
  have hQ : Step.quatN a = Step.quatN b := by
    unfold Step.quatN; exact congrArg _ hab.q
  have hua' : Ma.kin.updateH (Hist.ofArray a.hist).h inp.dt (Hist.ofArray a.hist).gdot = .ok (fun _ => g, c) := hua
  have hub' : Mb.kin.updateH (Hist.ofArray b.hist).h inp.dt (Hist.ofArray b.hist).gdot = .ok (fun _ => g, d) := hub
  have hq : (Hist.ofArray a.hist).q = (Hist.ofArray b.hist).q := hab.q
  have he : (Hist.ofArray a.hist).e = (Hist.ofArray b.hist).e := hab.e
  unfold getResponseSngl Step.setup
  simp only
  by_cases h1 : (Hist.ofArray b.hist).q = 0
  · rw [if_pos (hq.trans h1), if_pos h1]
    trivial
  rw [if_neg (fun h => h1 (hq.symm.trans h)), if_neg h1]
  by_cases h2 : eos.cvav = 0
  · rw [if_pos (show Ma.eos.cvav = 0 from h2), if_pos (show Mb.eos.cvav = 0 from h2)]
    trivial
  rw [if_neg (show ¬Ma.eos.cvav = 0 from h2), if_neg (show ¬Mb.eos.cvav = 0 from h2), hua', hub']
  simp only [Out.bind]
  rw [hE, hT, hQ, he]
  have hp : Updst.make Ma.geom Ma.kin Ma.el inp.dt (inp.vr 1) (Step.eosUpdate Mb inp b).eNew
      (Step.eosUpdate Mb inp b).press (Step.tK Mb inp b) (fun _ => g) (Hist.ofArray b.hist).e (Step.quatN b)
      (svecToVecd inp.d) inp.w = .undef "assert(vals[iSlip] > zero)" ∧
    Updst.make Mb.geom Mb.kin Mb.el inp.dt (inp.vr 1) (Step.eosUpdate Mb inp b).eNew
      (Step.eosUpdate Mb inp b).press (Step.tK Mb inp b) (fun _ => g) (Hist.ofArray b.hist).e (Step.quatN b)
      (svecToVecd inp.d) inp.w = .undef "assert(vals[0] > zero)" ∨
    Updst.make Ma.geom Ma.kin Ma.el inp.dt (inp.vr 1) (Step.eosUpdate Mb inp b).eNew
      (Step.eosUpdate Mb inp b).press (Step.tK Mb inp b) (fun _ => g) (Hist.ofArray b.hist).e (Step.quatN b)
      (svecToVecd inp.d) inp.w =
    Updst.make Mb.geom Mb.kin Mb.el inp.dt (inp.vr 1) (Step.eosUpdate Mb inp b).eNew
      (Step.eosUpdate Mb inp b).press (Step.tK Mb inp b) (fun _ => g) (Hist.ofArray b.hist).e (Step.quatN b)
      (svecToVecd inp.d) inp.w :=
    C99_problem hn k s0 S S1 geom el _ _ _ _ _ g _ _ _ _
  revert hp
  generalize Updst.make Ma.geom Ma.kin Ma.el inp.dt (inp.vr 1) (Step.eosUpdate Mb inp b).eNew
      (Step.eosUpdate Mb inp b).press (Step.tK Mb inp b) (fun _ => g) (Hist.ofArray b.hist).e (Step.quatN b)
      (svecToVecd inp.d) inp.w = u
  generalize Updst.make Mb.geom Mb.kin Mb.el inp.dt (inp.vr 1) (Step.eosUpdate Mb inp b).eNew
      (Step.eosUpdate Mb inp b).press (Step.tK Mb inp b) (fun _ => g) (Hist.ofArray b.hist).e (Step.quatN b)
      (svecToVecd inp.d) inp.w = v
  intro hp
  rcases hp with ⟨rfl, rfl⟩ | rfl
  · trivial
  · cases u with
    | undef w => trivial
    | fail w =>
      obtain ⟨q1, q2, q3, q4, q5, q6, q7, q8, q9, q10, q11, q12⟩ := hab
      exact ⟨rfl, q1, q2, rfl, q4, q5, q6, q7, q8, q9, q10, q11, q12⟩
    | ok P =>
      simp only
      unfold Step.run
      simp only
      rw [hE, hT, hab.mtan]
      obtain ⟨q1, q2, q3, q4, q5, q6, q7, q8, q9, q10, q11, q12⟩ := hab
      by_cases hc : (Step.solve X inp P).converged = false
      · rw [if_pos hc, if_pos hc]
        exact ⟨rfl, q1, q2, rfl, q4, rfl, q6, q7, q8, q9, q10, q11, q12⟩
      rw [if_neg hc, if_neg hc]
      cases Step.tangent X (Step.eosUpdate Mb inp b).bulkNew P (Step.solve X inp P).x b.mtan.isSome with
      | none => exact ⟨rfl, q1, q2, rfl, q4, rfl, q6, q7, q8, q9, q10, q11, q12⟩
      | some t =>
        simp only
        rw [show Ma.el = el from rfl]
        have q10' : (Hist.ofArray a.hist).shrEff = (Hist.ofArray b.hist).shrEff := q10
        cases el.getGmod with
        | undef w => trivial
        | fail w =>
          refine ⟨rfl, q1, rfl, rfl, q4, rfl, ?_, ?_, ?_, ?_, ?_, ?_, ?_⟩ <;>
            simp only [histOf, Hist.ofArray_toArray, Step.newHist, q10']
        | ok G =>
          refine ⟨?_, rfl, rfl, rfl, rfl, ?_, ?_, ?_, ?_, ?_, ?_, ?_⟩
          · simp only [q2]
          all_goals simp only [histOf, Hist.ofArray_toArray, Step.newHist, q10']

/-! ### Parameters and history description -/

/-- **C99, parameters.** With linear hardening every vector of `8 + n` numbers is accepted, is written
    back unchanged, and builds the same kinetics again. -/
theorem C99_params (l : List ℝ) (h : l.length = 8 + n) :
    ∃ k : AnisoVoce n, AnisoVoce.setParams false n l = .ok k ∧ k.getParams = l ∧
      AnisoVoce.setParams false n k.getParams = .ok k := by
  obtain ⟨mu, l, rfl, h1⟩ := exists_cons l (by omega)
  obtain ⟨xm, l, rfl, h2⟩ := exists_cons l (by simp at h; omega)
  obtain ⟨gw, l, rfl, h3⟩ := exists_cons l (by simp at h; omega)
  obtain ⟨h0, l, rfl, h4⟩ := exists_cons l (by simp at h; omega)
  simp only [List.length_cons] at h
  obtain ⟨t, l, rfl, h5⟩ := exists_ofFn_append n l (by omega)
  simp only [List.length_append, List.length_ofFn] at h
  obtain ⟨ts, l, rfl, h6⟩ := exists_cons l (by omega)
  obtain ⟨xs, l, rfl, h7⟩ := exists_cons l (by simp at h; omega)
  obtain ⟨gs, l, rfl, h8⟩ := exists_cons l (by simp at h; omega)
  obtain ⟨hi, l, rfl, h9⟩ := exists_cons l (by simp at h; omega)
  simp only [List.length_cons] at h
  have : l = [] := List.length_eq_zero_iff.1 (by omega)
  subst this
  let k : AnisoVoce n :=
    { base := { nonlinear := false, mu := mu, xm := xm, gamW := gw, h0 := h0, tausi := 0, taus0 := ts
                xmprime := 1, xms := xs, gamss0 := gs, hdnInit := hi }
      tausi := t }
  have e : k.getParams = mu :: xm :: gw :: h0 :: (List.ofFn t ++ [ts, xs, gs, hi]) := by
    simp [AnisoVoce.getParams, k]
  have f := k.setParams_linear rfl rfl rfl
  exact ⟨k, by rw [← e]; exact f, e, f⟩

/-- **C99, parameters, refuted** for nonlinear hardening: what is written back is one number short, and
    using it again reads behind its end. -/
theorem C99_refuted_params (k : AnisoVoce n) (hk : k.base.nonlinear = true) :
    k.getParams.length + 1 = AnisoVoce.nParams k.base.nonlinear n ∧
      AnisoVoce.setParams k.base.nonlinear n k.getParams = .undef "read behind the end of the parameters" := by
  constructor
  · simp [AnisoVoce.getParams, AnisoVoce.nParams, hk]; omega
  · rw [hk]
    unfold AnisoVoce.setParams Rd.on
    simp only [Rd.bind_app, AnisoVoce.getParams, List.cons_append, List.nil_append, rd_cons,
      Out.bind, rdN_ofFn, if_true, rd_nil]

/-- a model built from this kinetics: `n` slip systems, `n` strengths, any geometry and elasticity -/
noncomputable def anisoType (nonlinear iso : Bool) (geomN elN : ℕ) (setGeom : List ℝ → Out (SlipGeom n))
    (setEl : List ℝ → Out Elast) (Sn : Solver n) : MType where
  nslip := n
  nH := n
  geomN := geomN
  setGeom := setGeom
  elN := elN
  setEl := setEl
  kinN := AnisoVoce.nParams nonlinear n
  setKin := fun _ l => Out.bind (AnisoVoce.setParams nonlinear n l) fun k => .ok (k.kin Sn, k.histInfo)
  isothermal := iso

/-- **C99, refuted: the class cannot be used in a model.** The description of the history has one
    strength where the model keeps `n`, so that for more than one slip system no parameters whatever
    initialise the model. -/
theorem C99_refuted_model (hn : n ≠ 1) (nonlinear iso : Bool) (geomN elN : ℕ)
    (setGeom : List ℝ → Out (SlipGeom n)) (setEl : List ℝ → Out Elast) (Sn : Solver n) (S : Solver 1)
    (m : MM (anisoType nonlinear iso geomN elN setGeom setEl Sn)) (opts : List ℤ) (pars : List ℝ)
    (strs : List String) : (m.initFromParams S opts pars strs).2 ≠ .ok () := by
  refine init_mismatch (T := anisoType nonlinear iso geomN elN setGeom setEl Sn) S m opts pars strs ?_
  intro kl kk hK
  have hK' : (Out.bind (AnisoVoce.setParams nonlinear n kl) fun k => Out.ok (k.kin Sn, k.histInfo))
    = Out.ok kk := hK
  cases hq : AnisoVoce.setParams nonlinear n kl with
  | fail s => rw [hq] at hK'; cases hK'
  | undef s => rw [hq] at hK'; cases hK'
  | ok q =>
    rw [hq] at hK'
    rw [← Out.ok.inj hK']
    exact fun h => hn h.symm

/-! ### The hypotheses are met -/

/-- parameters of test/setup_kin_VocePL.h:7-45 with the switch ANISO_HARDENING -/
noncomputable def testAniso (nl : Bool) : AnisoVoce 12 where
  base := { nonlinear := nl, mu := 1, xm := 1 / 100, gamW := 1, h0 := 200 / 10 ^ 5, tausi := 0
            taus0 := 400 / 10 ^ 5, xmprime := if nl then 2 else 1, xms := 5 / 100, gamss0 := 1 / 10 ^ 6
            hdnInit := 100 / 10 ^ 5 }
  tausi := fun _ => 100 / 10 ^ 5

/-- the update of the test succeeds from any strengths with the ideal solver, and every strength then is
    near the solution of its equation -/
example (hO gdot : Vec 12) : ∃ h' c, (testAniso false).updateH (idealSolver 12) hO (1 / 10) gdot = .ok (h', c) ∧
    ∀ i z, SystemHardens (testAniso false) (1 / 10) gdot hO i z → |h' i - z| ≤ 1 / 10 ^ 10 * max (hO i) 1 := by
  obtain ⟨h', c, h⟩ := C99_exists (testAniso false) rfl (by simp [testAniso]; norm_num)
    (by simp [testAniso]) _ (idealSolver_finds 12) hO (1 / 10) (by norm_num) gdot
  exact ⟨h', c, h, fun i z hz => C99_update (testAniso false) rfl (by simp [testAniso]; norm_num) _
    (idealSolver_sound 12) hO _ (by norm_num) gdot h' c h i z hz⟩

/-- without slip the solver that tries its starting point leaves the strengths as they are -/
theorem aniso_rest (k : AnisoVoce n) (hk : k.base.nonlinear = false) (hg : 0 < k.base.gamss0) (h : Vec n) (dt : ℝ) :
    k.updateH (probe n) h dt (0 : Vec n) = .ok (h, 1) := by
  unfold AnisoVoce.updateH
  rw [if_neg (not_le.2 hg)]
  obtain ⟨D, hD⟩ := k.getSdotN_linear hk 0 h
  have hp : ∃ J, ({ law := k.base.getSdotN k.tausi (k.base.getEvolVals (0 : Vec n)), hO := h, dt := dt } : HNProblem n).computeRJ
      (fun _ => 0) = some ((0 : Vec n), J) := by
    simp only [HNProblem.computeRJ, zero_mul, add_zero, hD]
    refine ⟨_, congrArg some (Prod.ext ?_ rfl)⟩
    funext i
    simp [voceRate]
  obtain ⟨J, hJ⟩ := hp
  simp only [updateHN, probe_zero hJ (by norm_num : (0 : ℝ) ≤ 1 / 10 ^ 10), if_true]
  congr 2
  funext i
  simp [HNProblem.getHn]

/-- memory of an unloaded point with `nH` equal strengths -/
noncomputable def restMem (nH : ℕ) : Mem nH 12 where
  eInt := 0
  stress := 0
  hist := ({ shrateEff := 0, shrEff := 0, flowStr := 0, nFEval := 0, e := 0, q := ![1, 0, 0, 0]
             h := fun _ => 1 / 1000, gdot := 0 } : Hist nH 12).toArray
  tkelv := 300
  sdd := 0
  mtan := none

/-- the hypotheses of C99_response are met: a point without slip, whatever the loading -/
example (geom : SlipGeom 12) (el : Elast) (eos : Eos) (X : Ext) (inp : Inputs) :
    EndAlike
      (getResponseSngl X { geom := geom, kin := (testAniso false).kin (probe 12), el := el, eos := eos } inp (restMem 12))
      (getResponseSngl X
        { geom := geom, kin := Voce.kin { (testAniso false).base with tausi := 1 / 1000 } (probe 1) 12, el := el, eos := eos }
        inp (restMem 1)) := by
  have e : ∀ nH, histOf (restMem nH) = { shrateEff := 0, shrEff := 0, flowStr := 0, nFEval := 0, e := 0, q := ![1, 0, 0, 0], h := fun _ => 1 / 1000, gdot := 0 } :=
    fun nH => Hist.ofArray_toArray _
  refine C99_response (by norm_num) (testAniso false) (1 / 1000) (probe 12) (probe 1) geom el eos X inp _ _ ?_ (1 / 1000) 1 1 ?_ ?_
  · constructor <;> first | rfl | (rw [e, e])
  · rw [e]; exact aniso_rest (testAniso false) rfl (by simp [testAniso]) _ _
  · rw [e]; exact voce_rest _ rfl (by simp [testAniso]) _ _

/-- a case with two systems of different strength: strengths 2 and 1, initial strength 1, saturation 3,
    slip 1 on each system; the difference of one becomes one half -/
noncomputable def twoSystems : AnisoVoce 2 where
  base := { nonlinear := false, mu := 1, xm := 1, gamW := 1, h0 := 1, tausi := 0, taus0 := 3, xmprime := 1
            xms := 0, gamss0 := 1, hdnInit := 1 }
  tausi := fun _ => 1

example : SystemHardens twoSystems 1 (fun _ => 1) ![2, 1] 0 (5 / 2) ∧
    SystemHardens twoSystems 1 (fun _ => 1) ![2, 1] 1 2 := by
  have e : ∑ _j : Fin 2, |(1 : ℝ)| = 2 := by simp
  have s : voceSat 3 1 0 2 = 3 := by unfold voceSat; simp
  constructor <;> unfold SystemHardens twoSystems <;> simp only [e, s] <;> unfold voceRate <;> norm_num

/-- twenty numbers are accepted for twelve systems -/
example : ∃ k : AnisoVoce 12, AnisoVoce.setParams false 12 (List.replicate 20 1) = .ok k :=
  let ⟨k, h, _⟩ := C99_params (n := 12) (List.replicate 20 1) (by simp)
  ⟨k, h⟩

example : (testAniso true).getParams.length + 1 = 21 := (C99_refuted_params (testAniso true) rfl).1

/-- usable strengths exist -/
example : ∃ v, ((testAniso false).kin (idealSolver 12)).getVals 0 300 (fun _ => 1) = .ok v :=
  (C99_vals (by norm_num) (testAniso false) _ 0 300 _).1.2 fun _ => one_pos

end Ecm.Props
