/- Helper lemmas for the Python bindings. -/
import Verif.Model.Python
import Verif.Lemmas.Wrap
import Verif.Lemmas.Batch

namespace Ecm
open Classical

theorem toInt32_of_lt {k : ℕ} (h : k < 2 ^ 31) : toInt32 k = k := by
  unfold toInt32
  rw [Nat.mod_eq_of_lt (by omega), if_pos h]

theorem takePars_append (a b : List ℝ) : takePars a.length (a ++ b) = .ok (a, b) := by
  unfold takePars
  rw [if_neg (by simp)]; simp

theorem takePars_append' {k : ℕ} (a b : List ℝ) (h : a.length = k) : takePars k (a ++ b) = .ok (a, b) := by
  subst h; exact takePars_append a b

theorem devHistDesc_length (info : List HistEntry) (n : ℕ) :
    (devHistDesc info n).length = 13 + info.length + n := by
  simp [devHistDesc]; omega

/-- the single-point binding for a slip geometry without parameters: outcome by parts -/
theorem dev_new {T : MType} (S : Solver 1) (hT : T.geomN = 0) (rho0 cvav tol gamma ec0 : ℝ)
    (el kl : List ℝ) (he : el.length = T.elN) (hk : kl.length = T.kinN) :
    Dev.new T S (parVec rho0 cvav tol gamma ec0 [] el kl)
      = Out.bind (T.setGeom []) fun g => Out.bind (T.setEl el) fun e =>
          Out.bind (T.setKin S kl) fun k => Out.bind e.getBulkMod fun B =>
            if k.2.length = T.nH then .ok
              { rho0 := rho0, cvav := cvav, tolerance := tol
                mat := { geom := g, kin := k.1, el := e
                         eos := { isothermal := T.isothermal, rho0 := rho0, bulkMod := B, cvav := cvav
                                  gamma := gamma, ec0 := ec0 } }
                hist := devHistDesc k.2 T.nslip }
            else .fail "mismatch in numHist" := by
  have hl : (parVec rho0 cvav tol gamma ec0 [] el kl).length = T.devParams := by
    simp [parVec, MType.devParams, nParamsEOS, he, hk]; omega
  unfold Dev.new
  rw [if_neg (by rw [hl]; simp), hl]
  rw [show takePars 3 (parVec rho0 cvav tol gamma ec0 [] el kl)
    = .ok ([rho0, cvav, tol], [] ++ (el ++ (kl ++ [gamma, ec0]))) from
    takePars_append' [rho0, cvav, tol] _ rfl]
  simp only [Out.bind]
  rw [takePars_append' [] _ (by rw [hT]; rfl)]
  simp only
  cases T.setGeom [] with
  | fail s => rfl
  | undef w => rfl
  | ok g =>
    simp only
    rw [takePars_append' el _ he]
    simp only
    cases T.setEl el with
    | fail s => rfl
    | undef w => rfl
    | ok e =>
      simp only
      rw [takePars_append' kl _ hk]
      simp only
      cases T.setKin S kl with
      | fail s => rfl
      | undef w => rfl
      | ok k =>
        simp only
        cases e.getBulkMod with
        | fail s => rfl
        | undef w => rfl
        | ok B =>
          simp only
          rw [show takePars nParamsEOS [gamma, ec0] = .ok ([gamma, ec0], []) from
            takePars_append' [gamma, ec0] [] rfl]
          simp only [List.getD_cons_zero, List.getD_cons_succ, List.cons_append, List.nil_append,
            Eos.setParams_eq, List.length_nil, Nat.sub_zero, ne_eq, not_true_eq_false, if_false,
            devHistDesc_length, MType.numHist, numHist]
          by_cases h : k.2.length = T.nH
          · rw [if_neg (by omega), if_pos h]
          · rw [if_pos (by omega), if_neg h]

end Ecm
