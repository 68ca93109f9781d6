/- Error bounds for the rotation of tensors in floating-point arithmetic. -/
import Verif.Model.RotRound
import Verif.Lemmas.Rounding
import Verif.Props.Notation

namespace Ecm
open Spec

namespace Flt
variable (F : Flt)

/-- roundoff, enlarged by the error of the decimal literals -/
noncomputable def w : ℝ := F.u + 1 / 10 ^ 28

theorem w_pos : 0 < F.w := by unfold w; have := F.u_nonneg; positivity
theorem u_le_w : F.u ≤ F.w := by unfold w; have : (0:ℝ) < 1 / 10 ^ 28 := by positivity
                                 linarith
theorem w_le : F.w ≤ 1.1 / 10 ^ 6 := by
  unfold w; have := F.u_le
  have : (1:ℝ) / 10 ^ 28 ≤ 0.1 / 10 ^ 6 := by norm_num
  linarith

/-- `a` is a computed value of `x`, which is at most `m` in magnitude, with error at most `k` roundoffs -/
def Near (a x k m : ℝ) : Prop := |x| ≤ m ∧ |a - x| ≤ k * F.w

variable {F}

theorem Near.m0 {a x k m : ℝ} (h : F.Near a x k m) : 0 ≤ m := (abs_nonneg x).trans h.1
theorem Near.k0 {a x k m : ℝ} (h : F.Near a x k m) : 0 ≤ k := by
  have h1 := (abs_nonneg _).trans h.2
  exact nonneg_of_mul_nonneg_left h1 F.w_pos

theorem Near.mono {a x k m k' m' : ℝ} (h : F.Near a x k m) (hk : k ≤ k') (hm : m ≤ m') : F.Near a x k' m' :=
  ⟨h.1.trans hm, h.2.trans (mul_le_mul_of_nonneg_right hk F.w_pos.le)⟩

theorem Near.exact {x m : ℝ} (h : |x| ≤ m) : F.Near x x 0 m := ⟨h, by simp⟩

theorem Near.neg {a x k m : ℝ} (h : F.Near a x k m) : F.Near (-a) (-x) k m := by
  refine ⟨by rw [abs_neg]; exact h.1, ?_⟩
  rw [show -a - -x = -(a - x) by ring, abs_neg]; exact h.2

/-- rounding of a value with a known error -/
theorem Near.round {a x k m : ℝ} (h : F.Near a x k m) (hk : k ≤ 1000) (hm : m ≤ 100) :
    F.Near (F.fl a) x (k + m + 0.01) m := by
  have hw := F.w_pos; have hw1 := F.w_le; have hu := F.u_nonneg; have huw := F.u_le_w
  have hm0 := h.m0; have hk0 := h.k0
  have ha : |a| ≤ m + k * F.w := by
    have := abs_add_le (a - x) x; rw [sub_add_cancel] at this; linarith [h.1, h.2]
  have hkw : k * F.w ≤ 0.002 := by nlinarith
  have h1 := F.fl_abs ha (by
    have : (103:ℝ) ≤ 10 ^ 250 := by norm_num
    linarith)
  have hη := F.η_le_u
  refine ⟨h.1, ?_⟩
  have h2 := abs_add_le (F.fl a - a) (a - x)
  rw [sub_add_sub_cancel] at h2
  have h3 : F.u * (m + k * F.w) ≤ F.w * (m + 0.002) :=
    mul_le_mul huw (by linarith) (by positivity) hw.le
  nlinarith [h.2]

theorem Near.add {a b x y k l m p M : ℝ} (hx : F.Near a x k m) (hy : F.Near b y l p) (hM : |x + y| ≤ M)
    (hk : k + l ≤ 1000) (hm : M ≤ 100) : F.Near (F.fl (a + b)) (x + y) (k + l + M + 0.01) M := by
  refine Near.round ⟨hM, ?_⟩ hk hm
  rw [show a + b - (x + y) = (a - x) + (b - y) by ring, add_mul]
  exact (abs_add_le _ _).trans (add_le_add hx.2 hy.2)

theorem Near.sub {a b x y k l m p M : ℝ} (hx : F.Near a x k m) (hy : F.Near b y l p) (hM : |x - y| ≤ M)
    (hk : k + l ≤ 1000) (hm : M ≤ 100) : F.Near (F.fl (a - b)) (x - y) (k + l + M + 0.01) M := by
  have := hx.add hy.neg (M := M) (by rwa [← sub_eq_add_neg]) hk hm
  rwa [← sub_eq_add_neg, ← sub_eq_add_neg] at this

theorem Near.mul {a b x y k l m p M : ℝ} (hx : F.Near a x k m) (hy : F.Near b y l p) (hM : |x * y| ≤ M)
    (hk : k ≤ 100) (hl : l ≤ 100) (hm : m ≤ 3) (hp : p ≤ 3) (hM3 : M ≤ 9) :
    F.Near (F.fl (a * b)) (x * y) (k * p + m * l + M + 0.03) M := by
  have hw := F.w_pos; have hw1 := F.w_le
  have k0 := hx.k0; have l0 := hy.k0; have m0 := hx.m0; have p0 := hy.m0
  have key : F.Near (a * b) (x * y) (k * p + m * l + 0.02) M := by
    refine ⟨hM, ?_⟩
    rw [show a * b - x * y = (a - x) * y + x * (b - y) + (a - x) * (b - y) by ring]
    refine (abs_add_le _ _).trans ?_
    have h1 := abs_add_le ((a - x) * y) (x * (b - y))
    rw [abs_mul, abs_mul] at h1
    rw [abs_mul]
    have t1 := mul_le_mul hx.2 hy.1 (abs_nonneg _) (by positivity)
    have t2 := mul_le_mul hx.1 hy.2 (abs_nonneg _) m0
    have t3 := mul_le_mul hx.2 hy.2 (abs_nonneg _) (by positivity)
    have t4 : k * l ≤ 10000 := by nlinarith
    have t5 : k * F.w * (l * F.w) ≤ 0.02 * F.w := by
      have e : k * F.w * (l * F.w) = (k * l) * F.w * F.w := by ring
      rw [e]
      refine mul_le_mul_of_nonneg_right ?_ hw.le
      nlinarith
    nlinarith
  refine (key.round (by nlinarith) (by linarith)).mono (by linarith) le_rfl

theorem near_sqr3 : F.Near F.sqr3 Ecm.sqr3 2 1.7321 := by
  have hu := F.u_nonneg
  have h := Props.C46_literals.2.1
  have e : litSqr3 = 1.73205080756887729352744634151 := rfl
  have hl : |litSqr3| ≤ 1.7320509 := by rw [e, abs_of_pos (by norm_num)]; norm_num
  have h1 := F.fl_abs hl (by norm_num)
  have hη := F.η_le_u
  refine ⟨?_, ?_⟩
  · have := abs_add_le (-(litSqr3 - Ecm.sqr3)) litSqr3
    rw [abs_neg, show -(litSqr3 - Ecm.sqr3) + litSqr3 = Ecm.sqr3 by ring] at this
    have : (1:ℝ) / 10 ^ 28 ≤ 0.00001 := by norm_num
    linarith
  · have h2 := abs_add_le (F.fl litSqr3 - litSqr3) (litSqr3 - Ecm.sqr3)
    rw [sub_add_sub_cancel] at h2
    unfold sqr3 w
    have : (0:ℝ) < 1 / 10 ^ 28 := by positivity
    linarith

/-- one of the literals smaller than one -/
theorem near_lit {lit x : ℝ} (h : |lit - x| ≤ 1 / 10 ^ 28) {m : ℝ} (hl : |lit| + 1 / 10 ^ 10 ≤ m) (hm : m ≤ 1) :
    F.Near (F.fl lit) x 1 m := by
  have hu := F.u_nonneg
  have h1 := F.fl_abs (x := lit) (b := m - 1 / 10 ^ 10) (by linarith) (by
    have : (1:ℝ) ≤ 10 ^ 250 := by norm_num
    have : (0:ℝ) < 1 / 10 ^ 10 := by positivity
    linarith)
  have hη := F.η_le_u
  refine ⟨?_, ?_⟩
  · have := abs_add_le (-(lit - x)) lit
    rw [abs_neg, show -(lit - x) + lit = x by ring] at this
    have : (1:ℝ) / 10 ^ 28 ≤ 1 / 10 ^ 10 := by norm_num
    linarith
  · have h2 := abs_add_le (F.fl lit - lit) (lit - x)
    rw [sub_add_sub_cancel] at h2
    unfold w
    nlinarith

/-- entries of the computed rotation matrix -/
theorem near_quatToTensor {q : Vec 4} (hq : len q ≤ 1.001) (i j : Fin 3) :
    F.Near (F.quatToTensor q i j) (Ecm.quatToTensor q i j) 8 1.003 := by
  have hd : q 0 * q 0 + q 1 * q 1 + q 2 * q 2 + q 3 * q 3 ≤ 1.003 := by
    have h : len q ^ 2 = q 0 * q 0 + q 1 * q 1 + q 2 * q 2 + q 3 * q 3 := by
      unfold len; rw [Real.sq_sqrt]
      · simp [Spec.dot, Fin.sum_univ_four]
      · exact Finset.sum_nonneg fun i _ => mul_self_nonneg _
    have h0 : 0 ≤ len q := Real.sqrt_nonneg _
    nlinarith
  have hb : ∀ i, |q i| ≤ 1.001 := fun i => (abs_le_vecNorm' q i).trans hq
  have b0 := hb 0; have b1 := hb 1; have b2 := hb 2; have b3 := hb 3
  clear hb hq
  have sq : ∀ a : ℝ, |a| ≤ 1.001 → a * a ≤ 1.003 → F.Near (F.fl (a * a)) (a * a) 1.04 1.003 := fun a ha h =>
    ((Near.exact ha).mul (Near.exact ha) (M := 1.003) (by rwa [abs_mul_self]) (by norm_num) (by norm_num)
      (by norm_num) (by norm_num) (by norm_num)).mono (by norm_num) le_rfl
  have pr : ∀ a b : ℝ, |a| ≤ 1.001 → |b| ≤ 1.001 → a * a + b * b ≤ 1.003 →
      F.Near (F.fl (a * b)) (a * b) 0.54 0.5015 := fun a b ha hb h =>
    ((Near.exact ha).mul (Near.exact hb) (M := 0.5015)
      (by rw [abs_le]; constructor <;> nlinarith [sq_nonneg (a + b), sq_nonneg (a - b)]) (by norm_num)
      (by norm_num) (by norm_num) (by norm_num) (by norm_num)).mono (by norm_num) le_rfl
  have off : ∀ a b x y : ℝ, F.Near a x 0.54 0.5015 → F.Near b y 0.54 0.5015 → |x + y| ≤ 0.5015 →
      F.Near (F.fl (2 * F.fl (a + b))) (2 * (x + y)) 8 1.003 := fun a b x y ha hb h =>
    ((Near.exact (F := F) (x := 2) (m := 2) (by norm_num)).mul (ha.add hb h (by norm_num) (by norm_num))
      (M := 1.003) (by rw [abs_mul, abs_of_pos (by norm_num : (0:ℝ) < 2)]; linarith) (by norm_num)
      (by norm_num) (by norm_num) (by norm_num) (by norm_num)).mono (by norm_num) le_rfl
  have ofm : ∀ a b x y : ℝ, F.Near a x 0.54 0.5015 → F.Near b y 0.54 0.5015 → |x - y| ≤ 0.5015 →
      F.Near (F.fl (2 * F.fl (a - b))) (2 * (x - y)) 8 1.003 := fun a b x y ha hb h => by
    have := off a (-b) x (-y) ha hb.neg (by rwa [← sub_eq_add_neg])
    rwa [← sub_eq_add_neg, ← sub_eq_add_neg] at this
  have a0 := mul_self_nonneg (q 0); have a1 := mul_self_nonneg (q 1)
  have a2 := mul_self_nonneg (q 2); have a3 := mul_self_nonneg (q 3)
  have s0 := sq (q 0) b0 (by linarith); have s1 := sq (q 1) b1 (by linarith)
  have s2 := sq (q 2) b2 (by linarith); have s3 := sq (q 3) b3 (by linarith)
  have p01 := pr (q 0) (q 1) b0 b1 (by linarith); have p02 := pr (q 0) (q 2) b0 b2 (by linarith)
  have p03 := pr (q 0) (q 3) b0 b3 (by linarith); have p12 := pr (q 1) (q 2) b1 b2 (by linarith)
  have p13 := pr (q 1) (q 3) b1 b3 (by linarith); have p23 := pr (q 2) (q 3) b2 b3 (by linarith)
  have amgm : ∀ a b c d : ℝ, a * a + b * b + c * c + d * d ≤ 1.003 → |a * b + c * d| ≤ 0.5015 ∧
      |a * b - c * d| ≤ 0.5015 := fun a b c d h => by
    constructor <;> rw [abs_le] <;> constructor <;>
      nlinarith [sq_nonneg (a + b), sq_nonneg (a - b), sq_nonneg (c + d), sq_nonneg (c - d)]
  have k03 := amgm (q 1) (q 2) (q 0) (q 3) (by linarith)
  have k02 := amgm (q 1) (q 3) (q 0) (q 2) (by linarith)
  have k01 := amgm (q 2) (q 3) (q 0) (q 1) (by linarith)
  have h00 : F.Near (F.quatToTensor q 0 0) (Ecm.quatToTensor q 0 0) 8 1.003 :=
    (((s0.add s1 (M := 1.003) (by rw [abs_le]; constructor <;> linarith) (by norm_num) (by norm_num)).sub s2
      (M := 1.003) (by rw [abs_le]; constructor <;> linarith) (by norm_num) (by norm_num)).sub s3
      (M := 1.003) (by rw [abs_le]; constructor <;> linarith) (by norm_num) (by norm_num)).mono
      (by norm_num) le_rfl
  have h11 : F.Near (F.quatToTensor q 1 1) (Ecm.quatToTensor q 1 1) 8 1.003 :=
    (((s0.sub s1 (M := 1.003) (by rw [abs_le]; constructor <;> linarith) (by norm_num) (by norm_num)).add s2
      (M := 1.003) (by rw [abs_le]; constructor <;> linarith) (by norm_num) (by norm_num)).sub s3
      (M := 1.003) (by rw [abs_le]; constructor <;> linarith) (by norm_num) (by norm_num)).mono
      (by norm_num) le_rfl
  have h22 : F.Near (F.quatToTensor q 2 2) (Ecm.quatToTensor q 2 2) 8 1.003 :=
    (((s0.sub s1 (M := 1.003) (by rw [abs_le]; constructor <;> linarith) (by norm_num) (by norm_num)).sub s2
      (M := 1.003) (by rw [abs_le]; constructor <;> linarith) (by norm_num) (by norm_num)).add s3
      (M := 1.003) (by rw [abs_le]; constructor <;> linarith) (by norm_num) (by norm_num)).mono
      (by norm_num) le_rfl
  have h01 : F.Near (F.quatToTensor q 0 1) (Ecm.quatToTensor q 0 1) 8 1.003 := ofm _ _ _ _ p12 p03 k03.2
  have h02 : F.Near (F.quatToTensor q 0 2) (Ecm.quatToTensor q 0 2) 8 1.003 := off _ _ _ _ p13 p02 k02.1
  have h10 : F.Near (F.quatToTensor q 1 0) (Ecm.quatToTensor q 1 0) 8 1.003 := off _ _ _ _ p12 p03 k03.1
  have h12 : F.Near (F.quatToTensor q 1 2) (Ecm.quatToTensor q 1 2) 8 1.003 := ofm _ _ _ _ p23 p01 k01.2
  have h20 : F.Near (F.quatToTensor q 2 0) (Ecm.quatToTensor q 2 0) 8 1.003 := ofm _ _ _ _ p13 p02 k02.2
  have h21 : F.Near (F.quatToTensor q 2 1) (Ecm.quatToTensor q 2 1) 8 1.003 := off _ _ _ _ p23 p01 k01.1
  fin_cases i <;> fin_cases j <;> assumption

/-- entries of the computed 5x5 matrix -/
theorem near_getRotMatVecd {c' c : Mat 3 3} (h : ∀ i j, F.Near (c' i j) (c i j) 8 1.003) (i j : Fin 5) :
    F.Near (F.getRotMatVecd c' i j) (Ecm.getRotMatVecd c i j) 39 2.02 := by
  have pr : ∀ a b x y : ℝ, F.Near a x 8 1.003 → F.Near b y 8 1.003 →
      F.Near (F.fl (a * b)) (x * y) 17.1 1.007 := fun a b x y ha hb =>
    (ha.mul hb (M := 1.007) (by
      rw [abs_mul]; nlinarith [ha.1, hb.1, abs_nonneg x, abs_nonneg y]) (by norm_num) (by norm_num)
      (by norm_num) (by norm_num) (by norm_num)).mono (by norm_num) le_rfl
  have mm : ∀ a b d e x y z t : ℝ, F.Near a x 8 1.003 → F.Near b y 8 1.003 → F.Near d z 8 1.003 →
      F.Near e t 8 1.003 → F.Near (F.mm a b d e) (x * y - z * t) 39 2.02 :=
    fun a b d e x y z t ha hb hd he =>
    ((pr a b x y ha hb).sub (pr d e z t hd he) (M := 2.014)
      ((abs_sub _ _).trans (by linarith [(pr a b x y ha hb).1, (pr d e z t hd he).1])) (by norm_num)
      (by norm_num)).mono (by norm_num) (by norm_num)
  have mp : ∀ a b d e x y z t : ℝ, F.Near a x 8 1.003 → F.Near b y 8 1.003 → F.Near d z 8 1.003 →
      F.Near e t 8 1.003 → F.Near (F.mp a b d e) (x * y + z * t) 39 2.02 :=
    fun a b d e x y z t ha hb hd he =>
    ((pr a b x y ha hb).add (pr d e z t hd he) (M := 2.014)
      ((abs_add_le _ _).trans (by linarith [(pr a b x y ha hb).1, (pr d e z t hd he).1])) (by norm_num)
      (by norm_num)).mono (by norm_num) (by norm_num)
  have hf : F.Near (F.fl (F.sqr3 * (1 / 2))) (Ecm.sqr3 * (1 / 2)) 2 0.8661 :=
    (near_sqr3.mul (Near.exact (m := 1 / 2) (by rw [abs_of_pos (by norm_num)])) (M := 0.86605)
      (by rw [abs_mul, abs_of_pos (by norm_num : (0:ℝ) < 1 / 2)]; linarith [(near_sqr3 (F := F)).1])
      (by norm_num) (by norm_num) (by norm_num) (by norm_num) (by norm_num)).mono (by norm_num) (by norm_num)
  have ms : ∀ a b x y : ℝ, F.Near a x 8 1.003 → F.Near b y 8 1.003 →
      F.Near (F.fl (F.fl (F.sqr3 * (1 / 2)) * F.mm a a b b)) (Ecm.sqr3 * (1 / 2) * (x * x - y * y)) 39 2.02 :=
    fun a b x y ha hb => by
    have h1 := pr a a x x ha ha; have h2 := pr b b y y hb hb
    have h3 : |x * x - y * y| ≤ 1.007 := by
      have := h1.1; have := h2.1; rw [abs_mul_self] at *
      rw [abs_le]; constructor <;> linarith [mul_self_nonneg x, mul_self_nonneg y]
    refine (hf.mul (h1.sub h2 h3 (by norm_num) (by norm_num)) (M := 0.873) ?_ (by norm_num) (by norm_num)
      (by norm_num) (by norm_num) (by norm_num)).mono (by norm_num) (by norm_num)
    rw [abs_mul]
    exact (mul_le_mul hf.1 h3 (abs_nonneg _) (by norm_num)).trans (by norm_num)
  have s3 : ∀ a b x y : ℝ, F.Near a x 8 1.003 → F.Near b y 8 1.003 →
      F.Near (F.fl (F.fl (F.sqr3 * a) * b)) (Ecm.sqr3 * x * y) 39 2.02 := fun a b x y ha hb => by
    have h1 := near_sqr3.mul ha (M := 1.738) (by
      rw [abs_mul]; exact (mul_le_mul (near_sqr3 (F := F)).1 ha.1 (abs_nonneg _) (by norm_num)).trans (by norm_num))
      (by norm_num) (by norm_num) (by norm_num) (by norm_num) (by norm_num)
    refine (h1.mul hb (M := 1.744) ?_ (by norm_num) (by norm_num)
      (by norm_num) (by norm_num) (by norm_num)).mono (by norm_num) (by norm_num)
    rw [abs_mul]
    exact (mul_le_mul h1.1 hb.1 (abs_nonneg _) (by norm_num)).trans (by norm_num)
  have h00 : F.Near (F.getRotMatVecd c' 0 0) (Ecm.getRotMatVecd c 0 0) 39 2.02 := by
    have h1 := pr _ _ _ _ (h 0 0) (h 0 0); have h2 := pr _ _ _ _ (h 0 1) (h 0 1)
    have h3 := pr _ _ _ _ (h 1 0) (h 1 0); have h4 := pr _ _ _ _ (h 1 1) (h 1 1)
    have b1 := abs_le.1 h1.1; have b2 := abs_le.1 h2.1; have b3 := abs_le.1 h3.1; have b4 := abs_le.1 h4.1
    have n1 := mul_self_nonneg (c 0 0); have n2 := mul_self_nonneg (c 0 1)
    have n3 := mul_self_nonneg (c 1 0); have n4 := mul_self_nonneg (c 1 1)
    have h5 := h1.sub h2 (M := 1.007) (by rw [abs_le]; constructor <;> linarith) (by norm_num) (by norm_num)
    have h6 := h5.sub h3 (M := 2.014) (by rw [abs_le]; constructor <;> linarith) (by norm_num) (by norm_num)
    have h7 := h6.add h4 (M := 2.014) (by rw [abs_le]; constructor <;> linarith) (by norm_num) (by norm_num)
    exact ((Near.exact (x := (1 / 2 : ℝ)) (m := 1 / 2) (by rw [abs_of_pos (by norm_num)])).mul h7 (M := 1.007)
      (by rw [abs_mul, abs_of_pos (by norm_num : (0:ℝ) < 1 / 2)]; linarith [h7.1])
      (by norm_num) (by norm_num) (by norm_num) (by norm_num) (by norm_num)).mono (by norm_num) (by norm_num)
  have h11 : F.Near (F.getRotMatVecd c' 1 1) (Ecm.getRotMatVecd c 1 1) 39 2.02 := by
    have h1 := (Near.exact (F := F) (x := (3 / 2 : ℝ)) (m := 1.5) (by rw [abs_of_pos (by norm_num)]; norm_num)).mul (h 2 2)
      (M := 1.505) (by rw [abs_mul, abs_of_pos (by norm_num : (0:ℝ) < 3 / 2)]; linarith [(h 2 2).1])
      (by norm_num) (by norm_num) (by norm_num) (by norm_num) (by norm_num)
    have h2 := h1.mul (h 2 2) (M := 1.51)
      (by rw [abs_mul]; exact (mul_le_mul h1.1 (h 2 2).1 (abs_nonneg _) (by norm_num)).trans (by norm_num))
      (by norm_num) (by norm_num) (by norm_num) (by norm_num) (by norm_num)
    have b := abs_le.1 h2.1
    exact (h2.sub (Near.exact (x := (1 / 2 : ℝ)) (m := 1 / 2) (by rw [abs_of_pos (by norm_num)])) (M := 2.02)
      (by rw [abs_le]; constructor <;> linarith) (by norm_num) (by norm_num)).mono (by norm_num) (by norm_num)
  have h01 : F.Near (F.getRotMatVecd c' 0 1) (Ecm.getRotMatVecd c 0 1) 39 2.02 :=
    ms _ _ _ _ (h 0 2) (h 1 2)
  have h02 : F.Near (F.getRotMatVecd c' 0 2) (Ecm.getRotMatVecd c 0 2) 39 2.02 :=
    mm _ _ _ _ _ _ _ _ (h 0 0) (h 0 1) (h 1 0) (h 1 1)
  have h03 : F.Near (F.getRotMatVecd c' 0 3) (Ecm.getRotMatVecd c 0 3) 39 2.02 :=
    mm _ _ _ _ _ _ _ _ (h 0 0) (h 0 2) (h 1 0) (h 1 2)
  have h04 : F.Near (F.getRotMatVecd c' 0 4) (Ecm.getRotMatVecd c 0 4) 39 2.02 :=
    mm _ _ _ _ _ _ _ _ (h 0 1) (h 0 2) (h 1 1) (h 1 2)
  have h10 : F.Near (F.getRotMatVecd c' 1 0) (Ecm.getRotMatVecd c 1 0) 39 2.02 :=
    ms _ _ _ _ (h 2 0) (h 2 1)
  have h12 : F.Near (F.getRotMatVecd c' 1 2) (Ecm.getRotMatVecd c 1 2) 39 2.02 :=
    s3 _ _ _ _ (h 2 0) (h 2 1)
  have h13 : F.Near (F.getRotMatVecd c' 1 3) (Ecm.getRotMatVecd c 1 3) 39 2.02 :=
    s3 _ _ _ _ (h 2 0) (h 2 2)
  have h14 : F.Near (F.getRotMatVecd c' 1 4) (Ecm.getRotMatVecd c 1 4) 39 2.02 :=
    s3 _ _ _ _ (h 2 1) (h 2 2)
  have h20 : F.Near (F.getRotMatVecd c' 2 0) (Ecm.getRotMatVecd c 2 0) 39 2.02 :=
    mm _ _ _ _ _ _ _ _ (h 0 0) (h 1 0) (h 0 1) (h 1 1)
  have h21 : F.Near (F.getRotMatVecd c' 2 1) (Ecm.getRotMatVecd c 2 1) 39 2.02 :=
    s3 _ _ _ _ (h 0 2) (h 1 2)
  have h22 : F.Near (F.getRotMatVecd c' 2 2) (Ecm.getRotMatVecd c 2 2) 39 2.02 :=
    mp _ _ _ _ _ _ _ _ (h 0 0) (h 1 1) (h 0 1) (h 1 0)
  have h23 : F.Near (F.getRotMatVecd c' 2 3) (Ecm.getRotMatVecd c 2 3) 39 2.02 :=
    mp _ _ _ _ _ _ _ _ (h 0 0) (h 1 2) (h 0 2) (h 1 0)
  have h24 : F.Near (F.getRotMatVecd c' 2 4) (Ecm.getRotMatVecd c 2 4) 39 2.02 :=
    mp _ _ _ _ _ _ _ _ (h 0 1) (h 1 2) (h 0 2) (h 1 1)
  have h30 : F.Near (F.getRotMatVecd c' 3 0) (Ecm.getRotMatVecd c 3 0) 39 2.02 :=
    mm _ _ _ _ _ _ _ _ (h 0 0) (h 2 0) (h 0 1) (h 2 1)
  have h31 : F.Near (F.getRotMatVecd c' 3 1) (Ecm.getRotMatVecd c 3 1) 39 2.02 :=
    s3 _ _ _ _ (h 0 2) (h 2 2)
  have h32 : F.Near (F.getRotMatVecd c' 3 2) (Ecm.getRotMatVecd c 3 2) 39 2.02 :=
    mp _ _ _ _ _ _ _ _ (h 0 0) (h 2 1) (h 0 1) (h 2 0)
  have h33 : F.Near (F.getRotMatVecd c' 3 3) (Ecm.getRotMatVecd c 3 3) 39 2.02 :=
    mp _ _ _ _ _ _ _ _ (h 0 0) (h 2 2) (h 0 2) (h 2 0)
  have h34 : F.Near (F.getRotMatVecd c' 3 4) (Ecm.getRotMatVecd c 3 4) 39 2.02 :=
    mp _ _ _ _ _ _ _ _ (h 0 1) (h 2 2) (h 0 2) (h 2 1)
  have h40 : F.Near (F.getRotMatVecd c' 4 0) (Ecm.getRotMatVecd c 4 0) 39 2.02 :=
    mm _ _ _ _ _ _ _ _ (h 1 0) (h 2 0) (h 1 1) (h 2 1)
  have h41 : F.Near (F.getRotMatVecd c' 4 1) (Ecm.getRotMatVecd c 4 1) 39 2.02 :=
    s3 _ _ _ _ (h 1 2) (h 2 2)
  have h42 : F.Near (F.getRotMatVecd c' 4 2) (Ecm.getRotMatVecd c 4 2) 39 2.02 :=
    mp _ _ _ _ _ _ _ _ (h 1 0) (h 2 1) (h 1 1) (h 2 0)
  have h43 : F.Near (F.getRotMatVecd c' 4 3) (Ecm.getRotMatVecd c 4 3) 39 2.02 :=
    mp _ _ _ _ _ _ _ _ (h 1 0) (h 2 2) (h 1 2) (h 2 0)
  have h44 : F.Near (F.getRotMatVecd c' 4 4) (Ecm.getRotMatVecd c 4 4) 39 2.02 :=
    mp _ _ _ _ _ _ _ _ (h 1 1) (h 2 2) (h 1 2) (h 2 1)
  fin_cases i <;> fin_cases j <;> assumption

variable (F) in
/-- error of an accumulated product -/
theorem dot_err {n : ℕ} (a b : Vec n) (hn : n ≤ 30) (hv : (∑ i, |a i * b i|) ≤ 10 ^ 220) :
    |F.dot a b - ∑ i, a i * b i| ≤ 1.1 * (n + 1) * F.u * (∑ i, |a i * b i|) + 3 * n * F.η := by
  induction n with
  | zero =>
    have := F.u_nonneg
    simp [dot]
  | succ n IH =>
    have hu := F.u_nonneg; have hu1 := F.u_le; have hη := F.η_nonneg; have hη1 := F.η_le
    rw [Fin.sum_univ_castSucc] at hv
    rw [Fin.sum_univ_castSucc, Fin.sum_univ_castSucc]
    set S := ∑ i : Fin n, |a i.castSucc * b i.castSucc| with hS
    set T := ∑ i : Fin n, a i.castSucc * b i.castSucc with hT
    set y := a (Fin.last n) * b (Fin.last n) with hy
    have TS : |T| ≤ S := Finset.abs_sum_le_sum_abs _ _
    have S0 : 0 ≤ S := (abs_nonneg _).trans TS
    have x0 : 0 ≤ |y| := abs_nonneg _
    have ih := IH (fun i => a (Fin.castSucc i)) (fun i => b (Fin.castSucc i)) (by omega)
      (by rw [← hS]; linarith)
    rw [← hS, ← hT] at ih
    have hn' : (n : ℝ) ≤ 29 := by exact_mod_cast (by omega : n ≤ 29)
    have n0 : (0 : ℝ) ≤ n := Nat.cast_nonneg n
    have hx1 := F.fl_err y (by have : (10:ℝ) ^ 220 ≤ 10 ^ 250 := by norm_num
                               linarith)
    have sdef : F.dot a b = F.fl (F.dot (fun i => a i.castSucc) (fun i => b i.castSucc) + F.fl y) := rfl
    rw [sdef]
    set s := F.dot (fun i => a i.castSucc) (fun i => b i.castSucc)
    set p := F.fl y
    set x := |y| with hx
    have yx := abs_le.1 (le_refl |y|)
    have Tx := abs_le.1 TS
    have e1 : 1.1 * (n + 1) * F.u * S ≤ S := by
      have : 1.1 * ((n:ℝ) + 1) * F.u ≤ 1 := by nlinarith
      nlinarith
    have η1 : F.η ≤ 1 := by
      have : F.u / 10 ^ 200 ≤ 1 := by
        rw [div_le_one (by positivity)]
        exact hu1.trans (by norm_num)
      linarith
    have hsp : |s + p| ≤ (1.1 * (n + 1) * F.u * S + 3 * n * F.η) + (F.u * x + F.η) + (S + x) := by
      have a := abs_le.1 ih; have b := abs_le.1 hx1
      rw [abs_le]; constructor <;> linarith [a.1, a.2, b.1, b.2, yx.1, yx.2, Tx.1, Tx.2]
    have hbig : |s + p| ≤ 10 ^ 250 := by
      refine hsp.trans ?_
      have h1 : F.u * x ≤ x := by nlinarith
      have h2 : 3 * (n:ℝ) * F.η ≤ 90 := by nlinarith
      have h3 : (2:ℝ) * 10 ^ 220 + 91 ≤ 10 ^ 250 := by norm_num
      linarith
    have h1 := F.fl_err _ hbig
    have h2 : |F.fl (s + p) - (T + y)| ≤ F.u * |s + p| + F.η + (1.1 * (n + 1) * F.u * S + 3 * n * F.η)
        + (F.u * x + F.η) := by
      have a := abs_le.1 ih; have b := abs_le.1 hx1; have c := abs_le.1 h1
      rw [abs_le]; constructor <;> linarith [a.1, a.2, b.1, b.2, c.1, c.2]
    refine h2.trans ?_
    have h3 := mul_le_mul_of_nonneg_left hsp hu
    refine (by linarith : F.u * |s + p| + F.η + (1.1 * (n + 1) * F.u * S + 3 * n * F.η) + (F.u * x + F.η)
      ≤ F.u * ((1.1 * (n + 1) * F.u * S + 3 * n * F.η) + (F.u * x + F.η) + (S + x)) + F.η
        + (1.1 * (n + 1) * F.u * S + 3 * n * F.η) + (F.u * x + F.η)).trans ?_
    push_cast
    have uS : 0 ≤ F.u * S := mul_nonneg hu S0
    have ux : 0 ≤ F.u * x := mul_nonneg hu x0
    have a1 : F.u * (1.1 * ((n:ℝ) + 1)) * (F.u * S) ≤ 0.1 * (F.u * S) :=
      mul_le_mul_of_nonneg_right (by nlinarith) uS
    have a2 : F.u * (F.u * x) ≤ 0.1 * (F.u * x) := mul_le_mul_of_nonneg_right (by linarith) ux
    have a3 : F.u * (3 * n + 1) * F.η ≤ 1 * F.η := mul_le_mul_of_nonneg_right (by nlinarith) hη
    have a4 : 0 ≤ (n:ℝ) * (F.u * x) := mul_nonneg n0 ux
    linarith

theorem sum_abs_le5 (s : Vec 5) : ∑ j, |s j| ≤ 2.24 * vecNorm s := by
  have h : ∑ i, s i * s i = vecNorm s ^ 2 := by
    unfold vecNorm; rw [Real.sq_sqrt (Finset.sum_nonneg fun i _ => mul_self_nonneg _)]
  have h0 := vecNorm_nonneg s
  have h2 : (∑ j, |s j|) ^ 2 ≤ 5 * ∑ j, s j * s j := by
    have := Finset.sum_mul_sq_le_sq_mul_sq Finset.univ (fun _ : Fin 5 => (1:ℝ)) fun j => |s j|
    simpa [sq_abs, pow_two] using this
  rw [h] at h2
  refine abs_le_of_sq_le_sq' (by nlinarith) (by positivity) |>.2

/-- a row of the computed matrix times a vector, compared with a row of length at most one -/
theorem row_err {a r s : Vec 5} {k : ℝ} (h : ∀ j, |a j - r j| ≤ k * F.w) (hk0 : 0 ≤ k) (hk : k ≤ 1000)
    (hr : vecNorm r ≤ 1.01) (hs : vecNorm s ≤ 10 ^ 100) :
    |F.dot a s - ∑ j, r j * s j| ≤ (2.25 * k + 6.7) * F.w * vecNorm s + 15 * F.η := by
  have hw := F.w_pos; have hw1 := F.w_le; have hu := F.u_nonneg; have huw := F.u_le_w
  have hη := F.η_nonneg
  have s0 := vecNorm_nonneg s
  have h1 : |∑ j, a j * s j - ∑ j, r j * s j| ≤ k * F.w * (2.24 * vecNorm s) := by
    rw [← Finset.sum_sub_distrib]
    refine (Finset.abs_sum_le_sum_abs _ _).trans ?_
    refine le_trans ?_ (mul_le_mul_of_nonneg_left (sum_abs_le5 s) (by positivity))
    rw [Finset.mul_sum]
    refine Finset.sum_le_sum fun j _ => ?_
    rw [← sub_mul, abs_mul]
    exact mul_le_mul_of_nonneg_right (h j) (abs_nonneg _)
  have h2 : ∑ j, |r j * s j| ≤ 1.01 * vecNorm s := by
    have e : ∑ j, |r j * s j| = ∑ j, |r j| * |s j| := Finset.sum_congr rfl fun j _ => abs_mul _ _
    have c := Finset.sum_mul_sq_le_sq_mul_sq Finset.univ (fun j => |r j|) fun j => |s j|
    have f : ∀ v : Vec 5, ∑ i, |v i| ^ 2 = vecNorm v ^ 2 := fun v => by
      unfold vecNorm; rw [Real.sq_sqrt (Finset.sum_nonneg fun i _ => mul_self_nonneg _)]
      exact Finset.sum_congr rfl fun j _ => by rw [sq_abs, pow_two]
    rw [f, f, ← mul_pow] at c
    have r0 := vecNorm_nonneg r
    have := abs_le_of_sq_le_sq' c (by positivity) |>.2
    rw [e]
    exact this.trans (mul_le_mul_of_nonneg_right hr s0)
  have h3 : ∑ j, |a j * s j| ≤ 1.015 * vecNorm s := by
    have : ∑ j, |a j * s j| ≤ ∑ j, (|r j * s j| + k * F.w * |s j|) := by
      refine Finset.sum_le_sum fun j _ => ?_
      have := abs_add_le ((a j - r j) * s j) (r j * s j)
      rw [show (a j - r j) * s j + r j * s j = a j * s j by ring, abs_mul (a j - r j)] at this
      linarith [mul_le_mul_of_nonneg_right (h j) (abs_nonneg (s j))]
    rw [Finset.sum_add_distrib, ← Finset.mul_sum] at this
    have k1 : k * F.w ≤ 0.002 := by nlinarith
    have := mul_le_mul k1 (sum_abs_le5 s) (Finset.sum_nonneg fun j _ => abs_nonneg _) (by norm_num)
    linarith
  have h4 := F.dot_err a s (by norm_num) (h3.trans (by
    have : (1.015:ℝ) * 10 ^ 100 ≤ 10 ^ 220 := by norm_num
    linarith))
  have h5 := abs_add_le (F.dot a s - ∑ j, a j * s j) (∑ j, a j * s j - ∑ j, r j * s j)
  rw [sub_add_sub_cancel] at h5
  have h6 : F.u * (∑ j, |a j * s j|) ≤ F.w * (1.015 * vecNorm s) :=
    mul_le_mul huw h3 (Finset.sum_nonneg fun j _ => abs_nonneg _) hw.le
  push_cast at h4
  have : 0 ≤ k * F.w * vecNorm s := by positivity
  have : 0 ≤ F.w * vecNorm s := by positivity
  nlinarith

/-- a row of an orthogonal matrix times a vector, when the entries were computed from a quaternion whose
    length is not exactly one -/
theorem rot_err {a N : Mat 5 5} (hN : N * N.transpose = 1) {t : ℝ} (ht : |t - 1| ≤ 184.1 * F.w)
    (h : ∀ i j, |a i j - (t * N i j + if i = 1 ∧ j = 1 then (t - 1) / 2 else 0)| ≤ 39 * F.w)
    {s : Vec 5} (hs : vecNorm s ≤ 10 ^ 100) (i : Fin 5) :
    |F.dot (a i) s - N.mulVec s i| ≤ 372 * F.w * vecNorm s + 15 * F.η := by
  have hw := F.w_pos; have hw1 := F.w_le
  have s0 := vecNorm_nonneg s
  have ht1 : |t - 1| ≤ 0.001 := by linarith
  have hrow : vecNorm (fun j => N i j) = 1 := by
    have e := congrFun (congrFun hN i) i
    rw [Matrix.mul_apply, Matrix.one_apply_eq] at e
    simp only [Matrix.transpose_apply] at e
    unfold vecNorm; rw [e, Real.sqrt_one]
  set e : Vec 5 := fun j => if i = 1 ∧ j = 1 then (t - 1) / 2 else 0 with he
  have hen : vecNorm e ≤ |t - 1| / 2 := by
    by_cases hi : i = 1
    · have : ∑ j, e j * e j = (|t - 1| / 2) ^ 2 := by
        rw [he]; simp [hi, Fin.sum_univ_five, Fin.ext_iff, div_pow, sq_abs]; ring
      unfold vecNorm; rw [this, Real.sqrt_sq (by positivity)]
    · have : e = 0 := by funext j; simp [he, hi]
      rw [this]
      have : vecNorm (0 : Vec 5) = 0 := by simp [vecNorm]
      rw [this]; positivity
  have hr : vecNorm (fun j => t * N i j + e j) ≤ 1.01 := by
    have h1 := vecNorm_add_le (fun j => t * N i j) e
    have h2 : vecNorm (fun j => t * N i j) = |t| := by
      unfold vecNorm at hrow ⊢
      have : ∑ j, t * N i j * (t * N i j) = t ^ 2 * ∑ j, N i j * N i j := by
        rw [Finset.mul_sum]; exact Finset.sum_congr rfl fun j _ => by ring
      rw [this, Real.sqrt_mul (sq_nonneg t), hrow, mul_one, Real.sqrt_sq_eq_abs]
    have h3 : |t| ≤ 1.001 := by
      have := abs_add_le (t - 1) 1; rw [sub_add_cancel, abs_one] at this; linarith
    rw [h2] at h1
    exact le_trans h1 (by linarith)
  have h1 := row_err (F := F) (a := a i) (r := fun j => t * N i j + e j) (s := s) (k := 39)
    (fun j => h i j) (by norm_num) (by norm_num) hr hs
  have cs : ∀ x : Vec 5, |∑ j, x j * s j| ≤ vecNorm x * vecNorm s := fun x => by
    have f : ∀ v : Vec 5, ∑ i, v i ^ 2 = vecNorm v ^ 2 := fun v => by
      unfold vecNorm; rw [Real.sq_sqrt (Finset.sum_nonneg fun i _ => mul_self_nonneg _)]
      exact Finset.sum_congr rfl fun j _ => by rw [pow_two]
    have c := Finset.sum_mul_sq_le_sq_mul_sq Finset.univ x s
    rw [f, f, ← mul_pow] at c
    exact abs_le_of_sq_le_sq c (mul_nonneg (vecNorm_nonneg _) s0)
  have h2 : |∑ j, (t * N i j + e j) * s j - N.mulVec s i| ≤ 276.2 * F.w * vecNorm s := by
    have e1 : ∑ j, (t * N i j + e j) * s j - N.mulVec s i
        = (t - 1) * (∑ j, N i j * s j) + ∑ j, e j * s j := by
      rw [Matrix.mulVec, dotProduct, sub_mul, one_mul, Finset.mul_sum, sub_add_eq_add_sub,
        ← Finset.sum_add_distrib]
      congr 1
      exact Finset.sum_congr rfl fun j _ => by ring
    rw [e1]
    refine (abs_add_le _ _).trans ?_
    rw [abs_mul]
    have c1 := cs (fun j => N i j)
    have c2 := cs e
    rw [hrow, one_mul] at c1
    have d1 := mul_le_mul ht c1 (abs_nonneg _) (by positivity)
    have d2 := mul_le_mul_of_nonneg_right hen s0
    nlinarith
  have h3 := abs_add_le (F.dot (a i) s - ∑ j, (t * N i j + e j) * s j)
    (∑ j, (t * N i j + e j) * s j - N.mulVec s i)
  rw [sub_add_sub_cancel] at h3
  have : 0 ≤ F.w * vecNorm s := by positivity
  linarith

/-- the exact formulas at a quaternion whose length is not one -/
theorem rotMat_scale (p : Vec 4) (n : ℝ) (i j : Fin 5) :
    Ecm.getRotMatVecd (Ecm.quatToTensor fun i => n * p i) i j
      = n ^ 4 * Ecm.getRotMatVecd (Ecm.quatToTensor p) i j + if i = 1 ∧ j = 1 then (n ^ 4 - 1) / 2 else 0 := by
  fin_cases i <;> fin_cases j <;>
    simp [Ecm.getRotMatVecd, Ecm.quatToTensor] <;> ring

/-- what the computed 5x5 matrix is compared with -/
theorem computed_entries {q : Vec 4} (hq : |len q - 1| ≤ 46 * F.u) (i j : Fin 5) :
    |(len q) ^ 4 - 1| ≤ 184.1 * F.w ∧
    |F.getRotMatVecd (F.quatToTensor q) i j - ((len q) ^ 4
        * Ecm.getRotMatVecd (Ecm.quatToTensor fun i => q i / len q) i j
        + if i = 1 ∧ j = 1 then ((len q) ^ 4 - 1) / 2 else 0)| ≤ 39 * F.w := by
  have hu := F.u_nonneg; have hu1 := F.u_le; have huw := F.u_le_w
  have a := abs_le.1 hq
  have l0 : 0 < len q := by linarith [a.1]
  constructor
  · generalize len q = n at *
    rw [show n ^ 4 - 1 = (n - 1) * ((n + 1) * (n ^ 2 + 1)) by ring, abs_mul]
    have h1 : |(n + 1) * (n ^ 2 + 1)| ≤ 4.001 := by
      rw [abs_of_pos (by positivity)]
      have h2 : n ≤ 1.00005 := by linarith [a.2]
      have h3 : n ^ 2 ≤ 1.0002 := by nlinarith
      nlinarith
    have := mul_le_mul hq h1 (abs_nonneg _) (by positivity)
    linarith
  · rw [← rotMat_scale]
    have e : (fun i => len q * (q i / len q)) = q := by funext i; field_simp
    rw [e]
    exact (near_getRotMatVecd (near_quatToTensor (by linarith [a.2])) i j).2

/-- a literal times a computed value -/
theorem lit_mul {c' c m v V K L S : ℝ} (hc : F.Near c' c 1 m) (hm : m ≤ 1) (hv : |v - V| ≤ K * F.w * S + L * F.η)
    (hV : |V| ≤ S) (hS : S ≤ 10 ^ 100) (hK0 : 0 ≤ K) (hK : K ≤ 1000) (hL0 : 0 ≤ L) (hL : L ≤ 100) :
    |F.fl (c' * v) - c * V| ≤ (m * K + m + 1.01) * F.w * S + (L + 1.2) * F.η := by
  have hw := F.w_pos; have hw1 := F.w_le; have hu := F.u_nonneg; have huw := F.u_le_w
  have hη := F.η_nonneg; have hηu := F.η_le_u; have hu1 := F.u_le
  have S0 : 0 ≤ S := (abs_nonneg _).trans hV
  have m0 := hc.m0
  have wS : 0 ≤ F.w * S := by positivity
  have kw : K * F.w ≤ 0.0011 := by nlinarith
  have hv1 : |v| ≤ 1.0011 * S + L * F.η := by
    have := abs_add_le (v - V) V; rw [sub_add_cancel] at this
    nlinarith
  have h1 : |c' * v - c * V| ≤ F.w * (1.0011 * S + L * F.η) + m * (K * F.w * S + L * F.η) := by
    rw [show c' * v - c * V = (c' - c) * v + c * (v - V) by ring]
    refine (abs_add_le _ _).trans ?_
    rw [abs_mul, abs_mul]
    have d1 := mul_le_mul hc.2 hv1 (abs_nonneg _) (by rw [one_mul]; exact hw.le)
    have d2 := mul_le_mul hc.1 hv (abs_nonneg _) m0
    linarith
  have hcV : |c * V| ≤ m * S := by
    rw [abs_mul]; exact mul_le_mul hc.1 hV (abs_nonneg _) m0
  have b1 : F.w * (1.0011 * S + L * F.η) ≤ 0.0011 * S + 0.001 * F.η := by nlinarith [mul_nonneg hL0 hη]
  have b2 : m * (K * F.w * S + L * F.η) ≤ 0.0011 * S + L * F.η := by
    have e1 : m * (K * F.w * S + L * F.η) ≤ 1 * (K * F.w * S + L * F.η) :=
      mul_le_mul_of_nonneg_right hm (by positivity)
    have e2 : K * F.w * S ≤ 0.0011 * S := mul_le_mul_of_nonneg_right kw S0
    linarith
  have h2 : |c' * v| ≤ m * S + 0.0022 * S + (L + 0.001) * F.η := by
    have := abs_add_le (c' * v - c * V) (c * V); rw [sub_add_cancel] at this
    linarith
  have h3 := F.fl_abs h2 (by
    have q1 : m * S ≤ 1 * S := mul_le_mul_of_nonneg_right hm S0
    have q2 : (L + 0.001) * F.η ≤ 101 := by nlinarith
    have q3 : (1.0022:ℝ) * 10 ^ 100 + 101 ≤ 10 ^ 250 := by norm_num
    linarith)
  have h4 := abs_add_le (F.fl (c' * v) - c' * v) (c' * v - c * V)
  rw [sub_add_sub_cancel] at h4
  have c1 : F.u * (m * S + 0.0022 * S + (L + 0.001) * F.η)
      ≤ (m + 0.0022) * F.w * S + 0.001 * F.η := by
    have d1 : F.u * (m * S + 0.0022 * S) ≤ F.w * (m * S + 0.0022 * S) :=
      mul_le_mul_of_nonneg_right huw (by positivity)
    have d2 : F.u * (L + 0.001) ≤ 0.001 := by nlinarith
    have d3 := mul_le_mul_of_nonneg_right d2 hη
    linarith
  have c2 : F.w * L ≤ 0.001 := by nlinarith
  have c3 := mul_le_mul_of_nonneg_right c2 hη
  have c4 : m * (L * F.η) ≤ 1 * (L * F.η) := mul_le_mul_of_nonneg_right hm (by positivity)
  nlinarith

/-- sum of two computed values -/
theorem sum_err {a b x y A B M K S : ℝ} (ha : |a - x| ≤ A * F.w * S + K * F.η) (hb : |b - y| ≤ B * F.w * S + K * F.η)
    (hM : |x + y| ≤ M * S) (S0 : 0 ≤ S) (hS : S ≤ 10 ^ 100) (hA : 0 ≤ A) (hB : 0 ≤ B) (hAB : A + B ≤ 1000) (hM1 : M ≤ 1)
    (hK0 : 0 ≤ K) (hK : K ≤ 100) :
    |F.fl (a + b) - (x + y)| ≤ (A + B + M + 0.01) * F.w * S + (2 * K + 1.1) * F.η := by
  have hw := F.w_pos; have hw1 := F.w_le; have hu := F.u_nonneg; have huw := F.u_le_w
  have hη := F.η_nonneg; have hηu := F.η_le_u; have hu1 := F.u_le
  have wS : 0 ≤ F.w * S := by positivity
  have h1 : |(a + b) - (x + y)| ≤ (A + B) * F.w * S + 2 * K * F.η := by
    rw [show (a + b) - (x + y) = (a - x) + (b - y) by ring]
    refine (abs_add_le _ _).trans (by linarith)
  have kw : (A + B) * F.w ≤ 0.0011 := by nlinarith
  have h2 : |a + b| ≤ (M + 0.0011) * S + 2 * K * F.η := by
    have := abs_add_le ((a + b) - (x + y)) (x + y); rw [sub_add_cancel] at this
    nlinarith
  have h3 := F.fl_abs h2 (by
    have q1 : M * S ≤ 1 * S := mul_le_mul_of_nonneg_right hM1 S0
    have q2 : 2 * K * F.η ≤ 200 := by nlinarith
    have q3 : (1.0022:ℝ) * 10 ^ 100 + 200 ≤ 10 ^ 250 := by norm_num
    linarith)
  have h4 := abs_add_le (F.fl (a + b) - (a + b)) ((a + b) - (x + y))
  rw [sub_add_sub_cancel] at h4
  have MS : 0 ≤ M * S := (abs_nonneg _).trans hM
  have c1 : F.u * ((M + 0.0011) * S + 2 * K * F.η) ≤ (M + 0.0011) * F.w * S + 0.001 * F.η := by
    have d1 : F.u * ((M + 0.0011) * S) ≤ F.w * ((M + 0.0011) * S) :=
      mul_le_mul_of_nonneg_right huw (by linarith)
    have d2 : F.u * (2 * K) ≤ 0.001 := by nlinarith
    have d3 := mul_le_mul_of_nonneg_right d2 hη
    linarith
  nlinarith

/-- the documented components of a computed stress -/
theorem svecP_err {v V : Vec 6} {S : ℝ} (hS : S ≤ 10 ^ 100) (hV : vecNorm V ≤ S)
    (hv : ∀ i, |v i - V i| ≤ 372 * F.w * S + 15 * F.η) (i : Fin 7) :
    |F.vecdsToSvecP v i - Ecm.vecdsToSvecP V i| ≤ 421 * F.w * S + 34 * F.η := by
  have hw := F.w_pos; have hw1 := F.w_le; have hu := F.u_nonneg; have huw := F.u_le_w
  have hη := F.η_nonneg
  have S0 : 0 ≤ S := (vecNorm_nonneg V).trans hV
  have wS : 0 ≤ F.w * S := by positivity
  have bV : ∀ i, |V i| ≤ S := fun i => (abs_le_vecNorm' V i).trans hV
  obtain ⟨-, -, -, l2, l3, -, l6, l23, -⟩ := Props.C46_literals
  have n2 : F.Near F.sqr2i Ecm.sqr2i 1 0.70711 := near_lit l2 (by
    rw [show litSqr2i = 0.707106781186547524400844362105 from rfl, abs_of_pos (by norm_num)]; norm_num) (by norm_num)
  have n3 : F.Near F.sqr3i Ecm.sqr3i 1 0.57736 := near_lit l3 (by
    rw [show litSqr3i = 0.577350269189625764509148780501 from rfl, abs_of_pos (by norm_num)]; norm_num) (by norm_num)
  have n6 : F.Near F.sqr6i Ecm.sqr6i 1 0.40825 := near_lit l6 (by
    rw [show litSqr6i = 0.408248290463863016366214012450 from rfl, abs_of_pos (by norm_num)]; norm_num) (by norm_num)
  have n23 : F.Near F.sqr2b3 Ecm.sqr2b3 1 0.8165 := near_lit l23 (by
    rw [show litSqr2b3 = 0.816496580927726032732428024904 from rfl, abs_of_pos (by norm_num)]; norm_num) (by norm_num)
  have L : ∀ {c' c m : ℝ} (j : Fin 6), F.Near c' c 1 m → m ≤ 1 →
      |F.fl (c' * v j) - c * V j| ≤ (m * 372 + m + 1.01) * F.w * S + (15 + 1.2) * F.η := fun j hc hm =>
    lit_mul hc hm (hv j) (bV j) hS (by norm_num) (by norm_num) (by norm_num) (by norm_num)
  have t1 := L 0 n2 (by norm_num)
  have t2 := L 1 n6 (by norm_num)
  have nrm : ∀ a b : ℝ, a = Ecm.sqr2i * V 0 ∨ a = -(Ecm.sqr2i * V 0) → b = -(Ecm.sqr6i * V 1) → |a + b| ≤ 1 * S := by
    intro a b ha hb
    have hd : V 0 * V 0 + V 1 * V 1 ≤ S ^ 2 := by
      have h : ∑ i, V i * V i = vecNorm V ^ 2 := by
        unfold vecNorm; rw [Real.sq_sqrt (Finset.sum_nonneg fun i _ => mul_self_nonneg _)]
      rw [Fin.sum_univ_six] at h
      have := pow_le_pow_left₀ (vecNorm_nonneg V) hV 2
      nlinarith [mul_self_nonneg (V 2), mul_self_nonneg (V 3), mul_self_nonneg (V 4), mul_self_nonneg (V 5)]
    have e2 : Ecm.sqr2i ^ 2 ≤ 0.51 := by
      rw [← sq_abs]; nlinarith [n2.1, abs_nonneg Ecm.sqr2i]
    have e6 : Ecm.sqr6i ^ 2 ≤ 0.17 := by
      rw [← sq_abs]; nlinarith [n6.1, abs_nonneg Ecm.sqr6i]
    have hsq : (a + b) ^ 2 ≤ S ^ 2 := by
      have hab : (a + b) ^ 2 ≤ (Ecm.sqr2i ^ 2 + Ecm.sqr6i ^ 2) * (V 0 * V 0 + V 1 * V 1) := by
        rcases ha with rfl | rfl <;> subst hb
        · nlinarith [sq_nonneg (Ecm.sqr2i * V 1 + Ecm.sqr6i * V 0)]
        · nlinarith [sq_nonneg (Ecm.sqr2i * V 1 - Ecm.sqr6i * V 0)]
      have : (Ecm.sqr2i ^ 2 + Ecm.sqr6i ^ 2) * (V 0 * V 0 + V 1 * V 1) ≤ 1 * (V 0 * V 0 + V 1 * V 1) :=
        mul_le_mul_of_nonneg_right (by linarith) (by nlinarith [mul_self_nonneg (V 0), mul_self_nonneg (V 1)])
      linarith
    rw [one_mul]; exact abs_le_of_sq_le_sq hsq S0
  have neg : ∀ {a x e : ℝ}, |a - x| ≤ e → |-a - -x| ≤ e := fun {a x e} h => by
    rwa [show -a - -x = -(a - x) by ring, abs_neg]
  have h0 : |F.vecdsToSvecP v 0 - Ecm.vecdsToSvecP V 0| ≤ 421 * F.w * S + 34 * F.η := by
    have := sum_err (F := F) t1 (neg t2) (nrm _ _ (Or.inl rfl) rfl) S0 hS (by norm_num) (by norm_num) (by norm_num)
      (by norm_num) (by norm_num) (by norm_num)
    rw [← sub_eq_add_neg, ← sub_eq_add_neg] at this
    exact le_trans this (by linarith)
  have h1 : |F.vecdsToSvecP v 1 - Ecm.vecdsToSvecP V 1| ≤ 421 * F.w * S + 34 * F.η := by
    have := sum_err (F := F) (neg t1) (neg t2) (nrm _ _ (Or.inr rfl) rfl) S0 hS (by norm_num) (by norm_num)
      (by norm_num) (by norm_num) (by norm_num) (by norm_num)
    rw [← sub_eq_add_neg, ← sub_eq_add_neg] at this
    exact le_trans this (by linarith)
  have h2 : |F.vecdsToSvecP v 2 - Ecm.vecdsToSvecP V 2| ≤ 421 * F.w * S + 34 * F.η :=
    (L 1 n23 (by norm_num)).trans (by linarith)
  have h3 : |F.vecdsToSvecP v 3 - Ecm.vecdsToSvecP V 3| ≤ 421 * F.w * S + 34 * F.η :=
    (L 4 n2 (by norm_num)).trans (by linarith)
  have h4 : |F.vecdsToSvecP v 4 - Ecm.vecdsToSvecP V 4| ≤ 421 * F.w * S + 34 * F.η :=
    (L 3 n2 (by norm_num)).trans (by linarith)
  have h5' : |F.vecdsToSvecP v 5 - Ecm.vecdsToSvecP V 5| ≤ 421 * F.w * S + 34 * F.η :=
    (L 2 n2 (by norm_num)).trans (by linarith)
  have h6 : |F.vecdsToSvecP v 6 - Ecm.vecdsToSvecP V 6| ≤ 421 * F.w * S + 34 * F.η :=
    (L 5 n3.neg (by norm_num)).trans (by linarith)
  fin_cases i <;> assumption

end Flt
end Ecm
