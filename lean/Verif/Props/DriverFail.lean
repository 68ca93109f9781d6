/- Property theorems C81, continued: what the example program has printed when a step fails
   (miniapp/orientation_evolution.cxx:436-549). -/
import Verif.Props.Shipped

namespace Ecm.Props
open Ecm Spec

/-- what the program has to print in its first `K` steps (`Prints` has all 60) -/
def PrintsFor (K : ℕ) (c : Case) (X : Ext) (M : Material c.type.nslip c.type.nH) (tol : ℝ) (pars : List ℝ)
    (qs : List (Vec 4)) (out : List (Vec 6)) : Prop :=
  ∃ ts : List (ℕ → DrvState c.type.nH c.type.nslip),
    List.Forall₂ (fun q t => Fresh c pars q (t 0) ∧
      Driven X M tol (1 / 4000) !![-1 / 2, 0, 0; 0, -1 / 2, 0; 0, 0, 1] K t) qs ts ∧
    out = (List.range K).map fun j => fun e => (ts.map fun t => (t (j + 1)).stress e).sum / ts.length

/-- `K` steps of the time loop on prepared arrays -/
theorem loop_prints_for {c : Case} {X : Ext} {M : Material c.type.nslip c.type.nH} {tol : ℝ} {pars : List ℝ}
    {qs : List (Vec 4)} {mm : MM c.type} {m : DrvMem} (huse : DrvUses mm M tol)
    (hfit : DrvFits (drvNsv c.type) qs.length m)
    (hpt : ∀ i, ∀ hi : i < qs.length, vgradOf m.vgrad i = driverL ∧ Fresh c pars qs[i] (drvPoint _ _ m i))
    (K : ℕ) (out : List (Vec 6)) :
    (∃ m', drvLoop X mm drvDt (drvNsv c.type) qs.length K m [] = .ok (m', out)) ↔
      PrintsFor K c X M tol pars qs out := by
  obtain ⟨r1, r2⟩ := C81_run X huse drvDt qs.length K m hfit []
  have hmean : ∀ t : ℕ → ℕ → DrvState c.type.nH c.type.nslip, (List.range K).map (fun j =>
      meanStress qs.length fun i => t i (j + 1)) = (List.range K).map fun j => fun e =>
        (((List.range qs.length).map t).map fun t => (t (j + 1)).stress e).sum
          / ((List.range qs.length).map t).length := by
    intro t
    refine List.map_congr_left fun j _ => ?_
    funext e
    unfold meanStress
    rw [List.map_map, List.length_map, List.length_range, Finset.sum_range, ← List.sum_ofFn, List.ofFn_eq_map,
      ← List.map_coe_finRange_eq_range, List.map_map]
    rfl
  constructor
  · rintro ⟨m', hm'⟩
    have hall := r1.1 ⟨_, hm'⟩
    choose t ht0 htd using hall
    set t' : ℕ → ℕ → DrvState c.type.nH c.type.nslip := fun i =>
      if hi : i < qs.length then t i hi else fun _ => drvPoint _ _ m i with ht'
    have ht1 : ∀ i (hi : i < qs.length), t' i = t i hi := fun i hi => dif_pos hi
    refine ⟨(List.range qs.length).map t', ?_, ?_⟩
    · rw [List.forall₂_iff_get]
      refine ⟨by simp, fun i h1 h2 => ?_⟩
      have hi : i < qs.length := h1
      simp only [List.get_eq_getElem, List.getElem_map, List.getElem_range]
      rw [ht1 i hi, ht0 i hi]
      refine ⟨(hpt i hi).2, ?_⟩
      have := htd i hi
      rw [(hpt i hi).1, driverL_eq, drvDt_eq] at this
      exact this
    · have := (r2 _ hm' t' fun i hi => by rw [ht1 i hi]; exact ⟨ht0 i hi, htd i hi⟩).2
      rw [hmean] at this
      simpa using this
  · rintro ⟨ts, hts, hout⟩
    rw [List.forall₂_iff_get] at hts
    obtain ⟨hlen, hts⟩ := hts
    set t' : ℕ → ℕ → DrvState c.type.nH c.type.nslip := fun i j =>
      Nat.casesOn j (drvPoint _ _ m i) fun j => (ts.getD i fun _ => drvPoint _ _ m i) (j + 1) with ht'
    have htd : ∀ i < qs.length, t' i 0 = drvPoint _ _ m i ∧
        Driven X M tol drvDt (vgradOf m.vgrad i) K (t' i) := by
      intro i hi
      refine ⟨rfl, ?_⟩
      obtain ⟨f1, f2⟩ := hts i hi (hlen ▸ hi)
      rw [(hpt i hi).1, driverL_eq, drvDt_eq]
      have := driven_same f2 (Fresh.same f1 (hpt i hi).2)
      have e : ts.getD i (fun _ => drvPoint _ _ m i) = ts.get ⟨i, hlen ▸ hi⟩ := by
        rw [List.getD_eq_getElem?_getD, List.getElem?_eq_getElem (hlen ▸ hi)]
        rfl
      simp only [ht', e]
      exact this
    obtain ⟨p, hp⟩ := r1.2 fun i hi => ⟨t' i, htd i hi⟩
    refine ⟨p.1, ?_⟩
    have h2 := (r2 p hp t' htd).2
    rw [hmean] at h2
    have e : p.2 = out := by
      rw [h2, hout, List.nil_append]
      refine List.map_congr_left fun j _ => ?_
      funext e
      rw [List.map_map, List.length_map, List.length_range, hlen]
      congr 2
      refine List.ext_getElem (by simp) fun i h1 h3 => ?_
      simp only [List.getElem_map, List.getElem_range, Function.comp]
      have hi : i < ts.length := by simpa using h3
      show ((ts.getD i fun _ => drvPoint _ _ m i) (j + 1)).stress e = _
      rw [List.getD_eq_getElem?_getD, List.getElem?_eq_getElem hi]
      rfl
    rw [hp, ← e]

theorem drvLoop_fail {T : MType} {X : Ext} {mm : MM T} {dt : ℝ} {nsv N K : ℕ} {m m' : DrvMem} {out out' : List (Vec 6)}
    {e : String} (h : drvLoop X mm dt nsv N K m out = .fail e (m', out')) :
    ∃ k < K, ∃ m1, drvLoop X mm dt nsv N k m out = .ok (m1, out') ∧ drvStepAll X mm dt nsv N m1 = .fail e m' ∧
      ∀ p, drvLoop X mm dt nsv N (k + 1) m out ≠ .ok p := by
  induction K generalizing m out with
  | zero => simp [drvLoop] at h
  | succ K ih =>
    unfold drvLoop at h
    cases h1 : drvStepAll X mm dt nsv N m with
    | undef w => rw [h1] at h; cases h
    | fail e' b =>
      rw [h1] at h
      cases h
      refine ⟨0, Nat.succ_pos _, m, rfl, h1, fun p hp => ?_⟩
      unfold drvLoop at hp
      rw [h1] at hp
      cases hp
    | ok m2 =>
      rw [h1] at h
      obtain ⟨k, hk, m1, a, b, c⟩ := ih h
      refine ⟨k + 1, Nat.succ_lt_succ hk, m1, ?_, b, fun p hp => c p ?_⟩
      · unfold drvLoop
        rw [h1]
        exact a
      · unfold drvLoop at hp
        rw [h1] at hp
        exact hp

/-- **C81, failures.** When the program ends with an error, either it could not be prepared and has printed nothing, or
    the crystals could be driven through a number of steps less than 60, not all of them through one step more, and what
    has been printed are the means of the steps before. -/
theorem C81_failure (R : Reader) (u : ℕ → ℝ) (omp gpu : Bool) (S : Solver 1) (X : Ext) (g : ℕ → ℕ → ℝ)
    (files : String → List String) (optionFile : String) (e : String) (out : List (Vec 6))
    (h : drvMain R u omp gpu S X g files optionFile = .fail e out) :
    (drvPrepare R u omp gpu S g files optionFile = .fail e ∧ out = []) ∨
    ∃ c pars qs device M tol, Files R u omp gpu files optionFile c pars qs device ∧ BuiltFrom c.type S pars M tol ∧
      ∃ k < 60, PrintsFor k c X M tol pars qs out ∧ ∀ out', ¬ PrintsFor (k + 1) c X M tol pars qs out' := by
  unfold drvMain at h
  split at h
  · cases h
  · rename_i e' h1
    cases h
    exact Or.inl ⟨h1, rfl⟩
  · rename_i c r hr
    obtain ⟨pars, qs, device, M, tol, hF, hM⟩ := C81_reject hr
    refine Or.inr ⟨c, pars, qs, device, M, tol, hF, hM, ?_⟩
    obtain ⟨r', hr', hN, huse, hfit, hpt, -, -⟩ := C81_prepare g hF hM
    rw [hr] at hr'
    cases hr'
    rw [hN] at h
    split at h
    · cases h
    · rename_i e' p hp
      cases h
      obtain ⟨k, hk, m1, a, -, b⟩ := drvLoop_fail (m' := p.1) (out' := p.2) hp
      refine ⟨k, hk, (loop_prints_for huse hfit hpt k _).1 ⟨m1, a⟩, fun out' ho => ?_⟩
      obtain ⟨m2, h2⟩ := (loop_prints_for huse hfit hpt (k + 1) out').2 ho
      exact b _ h2
    · cases h

/-- a run that ends with an error: the device of the option file is not built in -/
example (S : Solver 1) (X : Ext) (g : ℕ → ℕ → ℝ) :
    drvMain stdReader (fun k => if k % 2 = 0 then 1 else -1 / 2) false false S X g shippedFiles "./option_gpu.txt"
      = .fail "Accelerator is not supported or RAJA was not built with" [] :=
  (C87_refused _ false false S X g fun i _ h => by
    have h0 := congrFun h 0
    have : (4 * i + ((0 : Fin 4) : ℕ)) % 2 = 0 := by simp; omega
    simp only [this] at h0
    norm_num at h0).2 rfl

end Ecm.Props
