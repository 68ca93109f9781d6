/- Property theorems C71: the stored quaternion in floating-point arithmetic
   (src/ecmech/ECMech_evptn.h:490-510, 1040-1047, 1219-1227; src/ecmech/ECMech_util.h:99-136, 468-508). -/
import Verif.Lemmas.Rounding

namespace Ecm.Props
open Ecm Spec

/-- a history of the stored quaternion: each step computes the product in floating-point arithmetic and
    possibly changes its sign -/
def QuatHistory (F : Flt) (σ : ℕ → ℤˣ) (xi : ℕ → Vec 3) (q : ℕ → Vec 4) : Prop :=
  ∀ k, q (k + 1) = fun i => ((σ k : ℤ) : ℝ) * F.quatStep (q k) (xi k) i

/-- the same history in exact arithmetic, from a unit quaternion -/
def ExactHistory (σ : ℕ → ℤˣ) (xi : ℕ → Vec 3) (Q : ℕ → Vec 4) : Prop :=
  ∀ k, Q (k + 1) = fun i => ((σ k : ℤ) : ℝ) * quatProd (Q k) (expQuat (xi k)) i

/-- **C71 one step.** Whatever the length of the stored quaternion and whatever the rotation increment,
    the length of the new quaternion is within `46 u` of one. -/
theorem C71_step (F : Flt) (q : Vec 4) (xi : Vec 3) (h0 : 1 / 10 ^ 91 ≤ len q) (h1 : len q ≤ 10 ^ 100)
    (hx : len xi ≤ 10 ^ 100) : |len (F.quatStep q xi) - 1| ≤ 46 * F.u := by
  obtain ⟨Q, hQ, e, -⟩ := step_close F h0 h1 hx
  have q0 : 0 < vecNorm q := lt_of_lt_of_le (by positivity) h0
  have n1 : vecNorm (quatProd (fun i => q i * (1 / vecNorm q)) Q) = 1 := by
    rw [vecNorm_quatProd, Flt.unit_vec q q0, hQ, one_mul]
  set P := quatProd (fun i => q i * (1 / vecNorm q)) Q
  have a := Flt.vecNorm_le_of_sub (F.quatStep q xi) P
  have b := Flt.vecNorm_le_of_sub P (F.quatStep q xi)
  have c : vecNorm (fun i => P i - F.quatStep q xi i) = vecNorm (fun i => F.quatStep q xi i - P i) := by
    unfold vecNorm; congr 1; exact Finset.sum_congr rfl fun i _ => by ring
  rw [c] at b
  show |vecNorm (F.quatStep q xi) - 1| ≤ _
  rw [abs_le]; constructor <;> linarith

/-- **C71 no drift.** After any number of steps the length of the stored quaternion is within `46 u` of
    one: rounding errors of the length do not accumulate. -/
theorem C71_no_drift (F : Flt) {σ : ℕ → ℤˣ} {xi : ℕ → Vec 3} {q : ℕ → Vec 4} (h : QuatHistory F σ xi q)
    (h0 : 1 / 10 ^ 91 ≤ len (q 0)) (h1 : len (q 0) ≤ 10 ^ 100) (hx : ∀ k, len (xi k) ≤ 10 ^ 100) (k : ℕ) :
    |len (q (k + 1)) - 1| ≤ 46 * F.u := by
  have key : ∀ k, 1 / 10 ^ 91 ≤ len (q k) ∧ len (q k) ≤ 10 ^ 100 := by
    intro k
    induction k with
    | zero => exact ⟨h0, h1⟩
    | succ k ih =>
      have e := C71_step F (q k) (xi k) ih.1 ih.2 (hx k)
      have s : len (q (k + 1)) = len (F.quatStep (q k) (xi k)) := by
        rw [h k]; exact vecNorm_sign _ _
      rw [s]
      have hu := F.u_le
      have a := abs_le.1 e
      have b1 : (1:ℝ) / 10 ^ 91 ≤ 0.5 := by norm_num
      have b2 : (2:ℝ) ≤ 10 ^ 100 := by norm_num
      constructor <;> linarith [a.1, a.2]
  have s : len (q (k + 1)) = len (F.quatStep (q k) (xi k)) := by
    rw [h k]; exact vecNorm_sign _ _
  rw [s]
  exact C71_step F (q k) (xi k) (key k).1 (key k).2 (hx k)

/-- **C71 accuracy of one step.** The new quaternion is within `(46 + 10 |xi|) u + 1e-89` of the product of
    the normalised old one and the exact exponential of the increment. -/
theorem C71_accuracy (F : Flt) (q : Vec 4) (xi : Vec 3) (h0 : 1 / 10 ^ 91 ≤ len q) (h1 : len q ≤ 10 ^ 100)
    (hx : len xi ≤ 10 ^ 100) :
    len (fun i => F.quatStep q xi i - quatProd (fun i => q i / len q) (expQuat xi) i)
      ≤ (46 + 10 * len xi) * F.u + 1 / 10 ^ 89 := by
  obtain ⟨Q, hQ, e, e2⟩ := step_close F h0 h1 hx
  have q0 : 0 < vecNorm q := lt_of_lt_of_le (by positivity) h0
  have hn : (fun i => q i / len q) = fun i => q i * (1 / vecNorm q) := by
    funext i; rw [mul_one_div]; rfl
  rw [hn]
  set n : Vec 4 := fun i => q i * (1 / vecNorm q) with hn'
  have t := Flt.vecNorm_tri (F.quatStep q xi) (quatProd n Q) (quatProd n (expQuat xi))
  rw [Flt.quatProd_sub_right, vecNorm_quatProd, Flt.unit_vec q q0, one_mul] at t
  show vecNorm _ ≤ (46 + 10 * vecNorm xi) * F.u + 1 / 10 ^ 89
  linarith

/-- **C71 growth of the orientation error.** From a common unit quaternion, after `k` steps with
    increments not exceeding `X` the stored quaternion differs from the exact one by at most
    `k ((92 + 10 X) u + 1e-89)`: the error grows linearly in the number of steps. -/
theorem C71_error_growth (F : Flt) {σ : ℕ → ℤˣ} {xi : ℕ → Vec 3} {q Q : ℕ → Vec 4} {X : ℝ}
    (h : QuatHistory F σ xi q) (hE : ExactHistory σ xi Q) (hq : q 0 = Q 0) (hQ : len (Q 0) = 1)
    (hX : X ≤ 10 ^ 100) (hx : ∀ k, len (xi k) ≤ X) (k : ℕ) :
    len (fun i => q k i - Q k i) ≤ k * ((92 + 10 * X) * F.u + 1 / 10 ^ 89) := by
  have hu := F.u_nonneg; have hu1 := F.u_le
  have hx' : ∀ k, len (xi k) ≤ 10 ^ 100 := fun k => (hx k).trans hX
  have q0 : len (q 0) = 1 := by rw [hq]; exact hQ
  have hq1 : ∀ k, |len (q k) - 1| ≤ 46 * F.u := by
    intro k
    cases k with
    | zero => rw [q0]; simpa using by positivity
    | succ k => exact C71_no_drift F h (by rw [q0]; norm_num) (by rw [q0]; norm_num) hx' k
  induction k with
  | zero => simp [hq, len, dot]
  | succ k ih =>
    have a := abs_le.1 (hq1 k)
    have b1 : (1:ℝ) / 10 ^ 91 ≤ 0.5 := by norm_num
    have b2 : (2:ℝ) ≤ 10 ^ 100 := by norm_num
    have acc := C71_accuracy F (q k) (xi k) (by linarith [a.1]) (by linarith [a.2]) (hx' k)
    have e1 : (fun i => q (k + 1) i - Q (k + 1) i)
        = fun i => ((σ k : ℤ) : ℝ) * (F.quatStep (q k) (xi k) i - quatProd (Q k) (expQuat (xi k)) i) := by
      funext i; rw [h k, hE k]; ring
    have s : len (fun i => q (k + 1) i - Q (k + 1) i)
        = vecNorm (fun i => F.quatStep (q k) (xi k) i - quatProd (Q k) (expQuat (xi k)) i) := by
      rw [e1]; exact vecNorm_sign _ _
    rw [s]
    have q0 : 0 < vecNorm (q k) := by
      have : 0 < len (q k) := by linarith [a.1]
      exact this
    have hE1 : vecNorm (expQuat (xi k)) = 1 := by rw [vecNorm_qn, qn_expQuat, Real.sqrt_one]
    have t1 := Flt.vecNorm_tri (F.quatStep (q k) (xi k))
      (quatProd (fun i => q k i / len (q k)) (expQuat (xi k))) (quatProd (Q k) (expQuat (xi k)))
    rw [Flt.quatProd_sub_left, vecNorm_quatProd, hE1, mul_one] at t1
    have t2 := Flt.vecNorm_tri (fun i => q k i / len (q k)) (q k) (Q k)
    have t3 : vecNorm (fun i => q k i / len (q k) - q k i) ≤ 46 * F.u := by
      have e : (fun i => q k i / len (q k) - q k i)
          = fun i => (1 - len (q k)) * (q k i * (1 / vecNorm (q k))) := by
        funext i
        have hl : len (q k) = vecNorm (q k) := rfl
        rw [hl]; field_simp
      have h2 := vecNorm_le_affine (n := 4) le_rfl
        (x := fun i => q k i / len (q k) - q k i) (y := fun i => q k i * (1 / vecNorm (q k)))
        (a := |1 - len (q k)|) (b := 0) (abs_nonneg _) le_rfl (fun i => by
          rw [add_zero, ← abs_mul]; exact le_of_eq (congrArg abs (congrFun e i)))
      rw [Flt.unit_vec _ q0, abs_sub_comm] at h2
      linarith [hq1 k]
    have hxk : F.u * len (xi k) ≤ F.u * X := mul_le_mul_of_nonneg_left (hx k) hu
    have acc' : vecNorm (fun i => F.quatStep (q k) (xi k) i
        - quatProd (fun i => q k i / len (q k)) (expQuat (xi k)) i)
        ≤ (46 + 10 * len (xi k)) * F.u + 1 / 10 ^ 89 := acc
    have ih' : vecNorm (fun i => q k i - Q k i) ≤ k * ((92 + 10 * X) * F.u + 1 / 10 ^ 89) := ih
    push_cast
    nlinarith

/-- hypotheses: in double precision, a history that starts from a quaternion of length two and turns by
    0.01 about the first axis in every step; after any number of steps the length is within 1e-14 of one -/
example : ∃ q : ℕ → Vec 4, q 0 = ![2, 0, 0, 0] ∧
    QuatHistory dbl (fun _ => 1) (fun _ => ![0.01, 0, 0]) q ∧ ∀ k, |len (q (k + 1)) - 1| ≤ 1 / 10 ^ 14 := by
  refine ⟨fun k => Nat.rec ![2, 0, 0, 0] (fun _ x => dbl.quatStep x ![0.01, 0, 0]) k, rfl,
    fun k => by funext i; simp, fun k => ?_⟩
  have l0 : len (![2, 0, 0, 0] : Vec 4) = 2 := by
    have : dot (![2, 0, 0, 0] : Vec 4) ![2, 0, 0, 0] = 2 ^ 2 := by
      simp [dot, Fin.sum_univ_four]; norm_num
    unfold len; rw [this]; exact Real.sqrt_sq (by norm_num)
  have l1 : len (![0.01, 0, 0] : Vec 3) = 0.01 := by
    have : dot (![0.01, 0, 0] : Vec 3) ![0.01, 0, 0] = 0.01 ^ 2 := by
      simp [dot, Fin.sum_univ_three]; norm_num
    unfold len; rw [this]; exact Real.sqrt_sq (by norm_num)
  refine (C71_no_drift dbl (σ := fun _ => 1) (xi := fun _ => ![0.01, 0, 0])
    (q := fun k => Nat.rec ![2, 0, 0, 0] (fun _ x => dbl.quatStep x ![0.01, 0, 0]) k)
    (fun k => by funext i; simp) (by show _ ≤ len (![2, 0, 0, 0] : Vec 4); rw [l0]; norm_num)
    (by show len (![2, 0, 0, 0] : Vec 4) ≤ _; rw [l0]; norm_num) (fun _ => by rw [l1]; norm_num) k).trans ?_
  show 46 * (2:ℝ)⁻¹ ^ 53 ≤ _
  norm_num

end Ecm.Props
