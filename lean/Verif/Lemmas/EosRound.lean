/- Error bounds for the equation of state and the energy balance in floating-point arithmetic. -/
import Verif.Lemmas.ResidRound
import Verif.Model.EosRound

namespace Ecm.Flt
open Spec Props
variable {F : Flt}

theorem eta_err {v : ℝ} (h0 : 1 / 2 ≤ v) : F.Er (F.fl (1 / v)) (1 / v) 2.02 2 := by
  have hb : |1 / v| ≤ 2 := by
    rw [abs_of_pos (by positivity), div_le_iff₀ (by linarith)]; linarith
  have := (Er.exact (F := F) hb).round (by norm_num) (Pw.of_num 190 (by norm_num) (by norm_num))
  exact this.mono (by norm_num) le_rfl

theorem mu_err {v : ℝ} (h0 : 1 / 2 ≤ v) :
    F.Er (F.fl (F.fl (1 / v) - 1)) (1 / v - 1) 3.03 1 := by
  have hv : 0 < v := by linarith
  have hb : |1 / v - 1| ≤ 1 := by
    have a : 1 / v ≤ 2 := by rw [div_le_iff₀ hv]; linarith
    have b : 0 < 1 / v := by positivity
    rw [abs_le]; constructor <;> linarith
  have h : F.Er (F.fl (1 / v) - 1) (1 / v - 1) 2.02 1 := by
    refine ⟨hb, ?_⟩
    rw [sub_sub_sub_cancel_right]; exact (eta_err h0).2
  exact (h.round (by norm_num) (Pw.of_num 190 (by norm_num) (by norm_num))).mono (by norm_num) le_rfl

/-- a rounded product of two exact factors -/
theorem prod_err {a b m : ℝ} (h : |a * b| ≤ m) (hm : Pw m 190) : F.Er (F.fl (a * b)) (a * b) (1.01 * m) m :=
  ((Er.exact (F := F) h).round (by linarith [hm.pos]) hm).mono (by linarith) le_rfl

theorem inner_err {s d : Vec 7} {A : ℝ} (hA : Pw A 100) (h : ∀ i : Fin 7, |s i * d i| ≤ A) :
    F.Er (F.innerSvecDev s d) (vecsInnerSvecDev s d) (39.4 * A) (9 * A) := by
  have a0 := hA.pos
  have pw : ∀ {c : ℝ}, 1 ≤ c → c ≤ 100 → Pw (c * A) 190 := fun h1 h2 =>
    ((Pw.of_num 2 (by linarith [h1]) (by linarith [h2]) : Pw _ 2).mul hA).mono (by norm_num)
  have pr : ∀ i : Fin 7, F.Er (F.fl (s i * d i)) (s i * d i) (1.01 * A) A := fun i =>
    prod_err (h i) (hA.mono (by norm_num))
  have two : ∀ i j : Fin 7, F.Er (F.fl (F.fl (s i * d i) + F.fl (s j * d j))) (s i * d i + s j * d j)
      (4.04 * A) (2 * A) := fun i j =>
    ((pr i).add (pr j) (by linarith) (by linarith) (by rw [← two_mul]; exact pw (by norm_num) (by norm_num))).mono
      (by linarith) (by linarith)
  have three : ∀ i j k : Fin 7, F.Er (F.fl (F.fl (F.fl (s i * d i) + F.fl (s j * d j)) + F.fl (s k * d k)))
      (s i * d i + s j * d j + s k * d k) (8.08 * A) (3 * A) := fun i j k =>
    ((two i j).add (pr k) (by linarith) (by linarith)
      (by rw [show 2 * A + A = 3 * A by ring]; exact pw (by norm_num) (by norm_num))).mono
      (by linarith) (by linarith)
  have sh := (three 3 4 5).scale (s := 2) (m := 2) (by norm_num) (by linarith)
    (by rw [← mul_assoc]; exact pw (by norm_num) (by norm_num))
  exact ((three 0 1 2).add sh (by linarith) (by linarith)
    (by rw [show 3 * A + 2 * (3 * A) = 9 * A by ring]; exact pw (by norm_num) (by norm_num))).mono
    (by linarith) (by linarith)

theorem half_err {v0 v1 dt T : ℝ} (h0 : |v0| ≤ 2) (h1 : |v1| ≤ 2) (hT : Pw T 80) (hdt : |dt| ≤ T) :
    F.Er (F.halfVMidDt v0 v1 dt) (1 / 4 * (v0 + v1) * dt) (3.04 * T) T := by
  have t0 := hT.pos
  have a : F.Er (F.fl (v0 + v1)) (v0 + v1) 4.04 4 :=
    ((Er.exact (F := F) h0).add (Er.exact h1) (by norm_num) (by norm_num)
      (Pw.of_num 190 (by norm_num) (by norm_num))).mono (by norm_num) (by norm_num)
  have b : F.Er (F.fl (1 / 4 * F.fl (v0 + v1))) (1 / 4 * (v0 + v1)) 2.02 1 :=
    (a.scale (s := 1 / 4) (m := 1 / 4) (by norm_num [abs_of_pos]) (by norm_num)
      (Pw.of_num 190 (by norm_num) (by norm_num))).mono (by norm_num) (by norm_num)
  exact (b.mul (Er.exact hdt) (by norm_num) (by linarith)
    (by rw [one_mul]; exact hT.mono (by norm_num))).mono (by linarith) (by linarith)

theorem work_err {v0 v1 dt T A : ℝ} {s d : Vec 7} (h0 : |v0| ≤ 2) (h1 : |v1| ≤ 2) (hT : Pw T 80) (hdt : |dt| ≤ T)
    (hA : Pw A 100) (h : ∀ i : Fin 7, |s i * d i| ≤ A) :
    F.Er (F.fl (F.halfVMidDt v0 v1 dt * F.innerSvecDev s d)) (1 / 4 * (v0 + v1) * dt * vecsInnerSvecDev s d)
      (76 * (T * A)) (9 * (T * A)) := by
  have t0 := hT.pos; have a0 := hA.pos
  have ta : 0 < T * A := by positivity
  have pw : Pw (T * (9 * A)) 190 := by
    have := ((Pw.of_num 1 (by norm_num) (by norm_num) : Pw (9:ℝ) 1).mul hA)
    exact (hT.mul this).mono (by norm_num)
  refine ((half_err h0 h1 hT hdt).mul (inner_err hA h) (by linarith) (by linarith) pw).mono ?_ ?_
  · rw [show 3.04 * T * (9 * A) + 1.003 * (T * (39.4 * A)) + 1.01 * (T * (9 * A))
      = (3.04 * 9 + 1.003 * 39.4 + 1.01 * 9) * (T * A) by ring]
    refine mul_le_mul_of_nonneg_right (by norm_num) ta.le
  · rw [show T * (9 * A) = 9 * (T * A) by ring]

end Ecm.Flt
