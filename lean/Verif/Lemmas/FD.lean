/- Pointwise calculus of Fréchet derivatives: `FD f x d` says that the real function `f` on a normed
   space is differentiable at `x` and that the derivative in the direction `h` is `d h`. -/
import Verif.Lemmas.Rotation
import Mathlib.Analysis.Calculus.FDeriv.Mul
import Mathlib.Analysis.Calculus.FDeriv.Add
import Mathlib.Analysis.Calculus.FDeriv.Pi
import Mathlib.Analysis.Calculus.FDeriv.Comp
import Mathlib.Analysis.Calculus.Deriv.Comp
import Mathlib.Analysis.Calculus.Deriv.Inv
import Mathlib.Analysis.SpecialFunctions.Sqrt
import Mathlib.Analysis.SpecialFunctions.Trigonometric.Deriv
import Mathlib.Analysis.SpecialFunctions.Exponential
import Mathlib.Topology.Algebra.Module.FiniteDimension

namespace Ecm
open Spec Matrix

variable {E : Type*} [NormedAddCommGroup E] [NormedSpace ℝ E]

/-- differentiable with directional derivative `d` -/
def FD (f : E → ℝ) (x : E) (d : E → ℝ) : Prop :=
  ∃ L : E →L[ℝ] ℝ, HasFDerivAt f L x ∧ ∀ h, L h = d h

namespace FD
variable {f g : E → ℝ} {x : E} {d e : E → ℝ}

theorem congr (hf : FD f x d) (h : ∀ v, d v = e v) : FD f x e := by
  obtain ⟨L, hL, hd⟩ := hf
  exact ⟨L, hL, fun v => (hd v).trans (h v)⟩

theorem congr_fun (hf : FD f x d) (h : ∀ y, g y = f y) : FD g x d := by
  have : g = f := funext h
  rwa [this]

theorem congr_ev (hf : FD f x d) (h : g =ᶠ[nhds x] f) : FD g x d := by
  obtain ⟨L, hL, hd⟩ := hf
  exact ⟨L, hL.congr_of_eventuallyEq h, hd⟩

theorem continuousAt (hf : FD f x d) : ContinuousAt f x := by
  obtain ⟨L, hL, _⟩ := hf
  exact hL.continuousAt

theorem const (c : ℝ) : FD (fun _ : E => c) x (fun _ => 0) :=
  ⟨0, hasFDerivAt_const c x, fun _ => rfl⟩

theorem add (hf : FD f x d) (hg : FD g x e) : FD (fun y => f y + g y) x (fun h => d h + e h) := by
  obtain ⟨L, hL, hd⟩ := hf
  obtain ⟨M, hM, he⟩ := hg
  exact ⟨L + M, hL.fun_add hM, fun h => by simp [hd, he]⟩

theorem sub (hf : FD f x d) (hg : FD g x e) : FD (fun y => f y - g y) x (fun h => d h - e h) := by
  obtain ⟨L, hL, hd⟩ := hf
  obtain ⟨M, hM, he⟩ := hg
  exact ⟨L - M, hL.fun_sub hM, fun h => by simp [hd, he]⟩

theorem neg (hf : FD f x d) : FD (fun y => -f y) x (fun h => -d h) := by
  obtain ⟨L, hL, hd⟩ := hf
  exact ⟨-L, hL.fun_neg, fun h => by simp [hd]⟩

theorem mul (hf : FD f x d) (hg : FD g x e) :
    FD (fun y => f y * g y) x (fun h => d h * g x + f x * e h) := by
  obtain ⟨L, hL, hd⟩ := hf
  obtain ⟨M, hM, he⟩ := hg
  exact ⟨_, hL.mul hM, fun h => by simp [hd, he]; ring⟩

theorem const_mul (c : ℝ) (hf : FD f x d) : FD (fun y => c * f y) x (fun h => c * d h) :=
  ((const c).mul hf).congr fun v => by ring

theorem mul_const (c : ℝ) (hf : FD f x d) : FD (fun y => f y * c) x (fun h => d h * c) :=
  (hf.mul (const c)).congr fun v => by ring

theorem sum {ι : Type*} {s : Finset ι} {F : ι → E → ℝ} {D : ι → E → ℝ}
    (h : ∀ i ∈ s, FD (F i) x (D i)) : FD (fun y => ∑ i ∈ s, F i y) x (fun v => ∑ i ∈ s, D i v) := by
  classical
  induction s using Finset.induction_on with
  | empty => simpa using const (E := E) (x := x) 0
  | insert a s ha ih =>
    have h1 := h a (Finset.mem_insert_self a s)
    have h2 := ih fun i hi => h i (Finset.mem_insert_of_mem hi)
    exact ((h1.add h2).congr_fun fun y => by rw [Finset.sum_insert ha]).congr fun v => by
      rw [Finset.sum_insert ha]

theorem comp (hf : FD f x d) {φ : ℝ → ℝ} {φ' : ℝ} (hφ : HasDerivAt φ φ' (f x)) :
    FD (fun y => φ (f y)) x (fun h => φ' * d h) := by
  obtain ⟨L, hL, hd⟩ := hf
  refine ⟨φ' • L, ?_, fun h => by simp [hd]⟩
  exact hφ.comp_hasFDerivAt x hL

theorem coord {n : ℕ} (i : Fin n) (x : Vec n) : FD (fun y : Vec n => y i) x (fun h => h i) :=
  ⟨ContinuousLinearMap.proj i, hasFDerivAt_apply i x, fun _ => rfl⟩

/-- derivative of a one-variable function -/
theorem of_hasDerivAt {φ : ℝ → ℝ} {φ' t : ℝ} (h : HasDerivAt φ φ' t) :
    FD φ t (fun s => s * φ') := by
  refine ⟨_, h.hasFDerivAt, fun s => by simp⟩

theorem hasDerivAt {φ : ℝ → ℝ} {t : ℝ} {d : ℝ → ℝ} (h : FD φ t d) : HasDerivAt φ (d 1) t := by
  obtain ⟨L, hL, hd⟩ := h
  have := hL.hasDerivAt
  rwa [hd] at this

end FD

theorem lin_apply {n : ℕ} (a v : Vec n) : lin a v = ∑ j, a j * v j := by
  simp [lin]

theorem lin33_apply (A : T3) (X : Fin 3 → Fin 3 → ℝ) : lin33 A X = ∑ p, ∑ q, A p q * X p q := by
  simp [lin33]

theorem FD.lin {n : ℕ} {f : Vec n → ℝ} {x : Vec n} {a : Vec n}
    (h : FD f x (fun v => ∑ j, a j * v j)) : HasFDerivAt f (Spec.lin a) x := by
  obtain ⟨L, hL, hd⟩ := h
  have e : Spec.lin a = L := by ext1 v; rw [hd, lin_apply]
  rw [e]; exact hL

theorem FD.lin33 {f : (Fin 3 → Fin 3 → ℝ) → ℝ} {x : Fin 3 → Fin 3 → ℝ} {A : T3}
    (h : FD f x (fun v => ∑ p, ∑ q, A p q * v p q)) : HasFDerivAt f (Spec.lin33 A) x := by
  obtain ⟨L, hL, hd⟩ := h
  have e : Spec.lin33 A = L := by ext1 v; rw [hd, lin33_apply]
  rw [e]; exact hL

theorem FD.of_lin {n : ℕ} {f : Vec n → ℝ} {x : Vec n} {a : Vec n}
    (h : HasFDerivAt f (Spec.lin a) x) : FD f x (fun v => ∑ j, a j * v j) :=
  ⟨_, h, lin_apply a⟩

/-- a vector-valued derivative given by a matrix -/
theorem hasJacobian_of_FD {m n : ℕ} {F : Vec n → Vec m} {x : Vec n} {J : Mat m n}
    (h : ∀ i, FD (fun y => F y i) x (fun v => ∑ j, J i j * v j)) : HasJacobian F J x :=
  fun i => (h i).lin

theorem FD.coord33 (i j : Fin 3) (x : Fin 3 → Fin 3 → ℝ) :
    FD (fun y : Fin 3 → Fin 3 → ℝ => y i j) x (fun h => h i j) := by
  let L : (Fin 3 → Fin 3 → ℝ) →L[ℝ] ℝ :=
    (ContinuousLinearMap.proj (R := ℝ) (φ := fun _ : Fin 3 => ℝ) j).comp
      (ContinuousLinearMap.proj (R := ℝ) (φ := fun _ : Fin 3 => Fin 3 → ℝ) i)
  have hL : HasFDerivAt (fun y => L y) L x := L.hasFDerivAt
  exact ⟨L, hL, fun _ => rfl⟩

/-! ### Matrices with differentiable entries -/

/-- entrywise `FD` -/
def MFD {m n : ℕ} (C : E → Mat m n) (x : E) (D : E → Mat m n) : Prop :=
  ∀ i j, FD (fun y => C y i j) x (fun h => D h i j)

/-- componentwise `FD` -/
def VFD {n : ℕ} (v : E → Vec n) (x : E) (d : E → Vec n) : Prop :=
  ∀ i, FD (fun y => v y i) x (fun h => d h i)

theorem MFD.mul {m n k : ℕ} {A : E → Mat m n} {B : E → Mat n k} {x : E} {A' : E → Mat m n}
    {B' : E → Mat n k} (hA : MFD A x A') (hB : MFD B x B') :
    MFD (fun y => A y * B y) x (fun h => A' h * B x + A x * B' h) := by
  intro i j
  have := FD.sum (s := Finset.univ) (fun l _ => (hA i l).mul (hB l j))
  refine (this.congr_fun fun y => by simp only [Matrix.mul_apply]).congr fun h => ?_
  simp [Matrix.mul_apply, Finset.sum_add_distrib]

theorem MFD.transpose {m n : ℕ} {A : E → Mat m n} {x : E} {A' : E → Mat m n} (hA : MFD A x A') :
    MFD (fun y => (A y).transpose) x (fun h => (A' h).transpose) := fun i j => hA j i

theorem MFD.const {m n : ℕ} (A : Mat m n) {x : E} : MFD (fun _ => A) x (fun _ => 0) :=
  fun i j => FD.const (A i j)

theorem MFD.congr {m n : ℕ} {A : E → Mat m n} {x : E} {D D' : E → Mat m n} (hA : MFD A x D)
    (h : ∀ v, D v = D' v) : MFD A x D' := fun i j => (hA i j).congr fun v => by rw [h]

theorem VFD.congr {n : ℕ} {v : E → Vec n} {x : E} {d d' : E → Vec n} (hv : VFD v x d)
    (h : ∀ w, d w = d' w) : VFD v x d' := fun i => (hv i).congr fun w => by rw [h]

theorem VFD.const {n : ℕ} (v : Vec n) {x : E} : VFD (fun _ => v) x (fun _ => 0) :=
  fun i => FD.const (v i)

theorem VFD.mulVec {m n : ℕ} {A : E → Mat m n} {v : E → Vec n} {x : E} {A' : E → Mat m n}
    {v' : E → Vec n} (hA : MFD A x A') (hv : VFD v x v') :
    VFD (fun y => (A y).mulVec (v y)) x (fun h => (A' h).mulVec (v x) + (A x).mulVec (v' h)) := by
  intro i
  have := FD.sum (s := Finset.univ) (fun l _ => (hA i l).mul (hv l))
  refine (this.congr_fun fun y => by simp [Matrix.mulVec, dotProduct]).congr fun h => ?_
  simp [Matrix.mulVec, dotProduct, Finset.sum_add_distrib]

theorem MFD.conjT {C A : E → Mat 3 3} {x : E} {C' A' : E → Mat 3 3} (hC : MFD C x C')
    (hA : MFD A x A') : MFD (fun y => (C y).transpose * A y * C y) x
      (fun h => (C' h).transpose * A x * C x + (C x).transpose * A x * C' h
        + (C x).transpose * A' h * C x) :=
  ((hC.transpose.mul hA).mul hC).congr fun h => by
    rw [Matrix.add_mul]; abel

theorem MFD.conj {C A : E → Mat 3 3} {x : E} {C' A' : E → Mat 3 3} (hC : MFD C x C')
    (hA : MFD A x A') : MFD (fun y => C y * A y * (C y).transpose) x
      (fun h => C' h * A x * (C x).transpose + C x * A x * (C' h).transpose
        + C x * A' h * (C x).transpose) :=
  ((hC.mul hA).mul hC.transpose).congr fun h => by
    rw [Matrix.add_mul]; abel

theorem VFD.symmToVecd {A : E → Mat 3 3} {x : E} {A' : E → Mat 3 3} (hA : MFD A x A') :
    VFD (fun y => symmToVecd (A y)) x (fun h => symmToVecd (A' h)) := by
  intro i
  fin_cases i
  · exact ((hA 0 0).sub (hA 1 1)).const_mul _
  · exact (((hA 2 2).const_mul 2).sub (hA 0 0)).sub (hA 1 1) |>.const_mul _
  · exact (hA 1 0).const_mul _
  · exact (hA 2 0).const_mul _
  · exact (hA 2 1).const_mul _

theorem vecdToSymm_apply (v : Vec 5) : vecdToSymm v =
    !![sqr2i * v 0 - sqr6i * v 1, sqr2i * v 2, sqr2i * v 3;
       sqr2i * v 2, -(sqr2i * v 0) - sqr6i * v 1, sqr2i * v 4;
       sqr2i * v 3, sqr2i * v 4, sqr2b3 * v 1] := by
  ext i j; fin_cases i <;> fin_cases j <;> simp [vecdToSymm, ofSvecP, vecdsToSvecP]

theorem MFD.vecdToSymm {v : E → Vec 5} {x : E} {v' : E → Vec 5} (hv : VFD v x v') :
    MFD (fun y => vecdToSymm (v y)) x (fun h => vecdToSymm (v' h)) := by
  intro i j
  simp only [vecdToSymm_apply]
  fin_cases i <;> fin_cases j
  · exact ((hv 0).const_mul _).sub ((hv 1).const_mul _)
  · exact (hv 2).const_mul _
  · exact (hv 3).const_mul _
  · exact (hv 2).const_mul _
  · exact (((hv 0).const_mul _).neg).sub ((hv 1).const_mul _)
  · exact (hv 4).const_mul _
  · exact (hv 3).const_mul _
  · exact (hv 4).const_mul _
  · exact (hv 1).const_mul _

/-! ### Algebraic content of the derivative tables -/

theorem forall_fin5 {P : Fin 5 → Prop} (h0 : P 0) (h1 : P 1) (h2 : P 2) (h3 : P 3) (h4 : P 4)
    (i : Fin 5) : P i := by
  fin_cases i <;> assumption

set_option maxHeartbeats 2000000 in
theorem latop_eq (C X : Mat 3 3) (v : Vec 5) (i : Fin 5) :
    ∑ p, ∑ q, dRotMatVecdLatop C v i p q * X p q
      = symmToVecd (X.transpose * vecdToSymm v * C + C.transpose * vecdToSymm v * X) i := by
  rw [vecdToSymm_apply]
  revert i
  apply forall_fin5 <;>
    simp only [dRotMatVecdLatop, Fin.sum_univ_three, symmToVecd, Matrix.add_apply,
      Matrix.mul_apply, Matrix.transpose_apply, Matrix.of_apply, Matrix.cons_val] <;> sqr_ring

set_option maxHeartbeats 2000000 in
theorem smop_eq (C X : Mat 3 3) (v : Vec 5) (i : Fin 5) :
    ∑ p, ∑ q, dRotMatVecdSmop C v i p q * X p q
      = symmToVecd (X * vecdToSymm v * C.transpose + C * vecdToSymm v * X.transpose) i := by
  rw [vecdToSymm_apply]
  revert i
  apply forall_fin5 <;>
    simp only [dRotMatVecdSmop, Fin.sum_univ_three, symmToVecd, Matrix.add_apply,
      Matrix.mul_apply, Matrix.transpose_apply, Matrix.of_apply, Matrix.cons_val] <;> sqr_ring

theorem wveccp_eq (X : Mat 3 3) (w : Vec 3) (i : Fin 3) :
    ∑ p, ∑ q, dRotMatWveccpLatop w i p q * X p q = X.transpose.mulVec w i := by
  fin_cases i <;>
    simp [dRotMatWveccpLatop, Fin.sum_univ_three, Matrix.mulVec, dotProduct] <;> ring

/-! ### Quaternions -/

/-- derivative of the rotation tensor in the direction `h` -/
def dqt (q h : Vec 4) : Mat 3 3 := fun a b => ∑ r, dQuatToTensor q a b r * h r

theorem MFD.quatToTensor {q : E → Vec 4} {x : E} {q' : E → Vec 4} (hq : VFD q x q') :
    MFD (fun y => quatToTensor (q y)) x (fun h => dqt (q x) (q' h)) := by
  have m := fun i j => (hq i).mul (hq j)
  intro i j
  fin_cases i <;> fin_cases j
  · refine ((((m 0 0).add (m 1 1)).sub (m 2 2)).sub (m 3 3)).congr fun h => ?_
    simp [dqt, dQuatToTensor, Fin.sum_univ_four]; ring
  · refine (((m 1 2).sub (m 0 3)).const_mul 2).congr fun h => ?_
    simp [dqt, dQuatToTensor, Fin.sum_univ_four]; ring
  · refine (((m 1 3).add (m 0 2)).const_mul 2).congr fun h => ?_
    simp [dqt, dQuatToTensor, Fin.sum_univ_four]; ring
  · refine (((m 1 2).add (m 0 3)).const_mul 2).congr fun h => ?_
    simp [dqt, dQuatToTensor, Fin.sum_univ_four]; ring
  · refine ((((m 0 0).sub (m 1 1)).add (m 2 2)).sub (m 3 3)).congr fun h => ?_
    simp [dqt, dQuatToTensor, Fin.sum_univ_four]; ring
  · refine (((m 2 3).sub (m 0 1)).const_mul 2).congr fun h => ?_
    simp [dqt, dQuatToTensor, Fin.sum_univ_four]; ring
  · refine (((m 1 3).sub (m 0 2)).const_mul 2).congr fun h => ?_
    simp [dqt, dQuatToTensor, Fin.sum_univ_four]; ring
  · refine (((m 2 3).add (m 0 1)).const_mul 2).congr fun h => ?_
    simp [dqt, dQuatToTensor, Fin.sum_univ_four]; ring
  · refine ((((m 0 0).sub (m 1 1)).sub (m 2 2)).add (m 3 3)).congr fun h => ?_
    simp [dqt, dQuatToTensor, Fin.sum_univ_four]; ring

theorem VFD.quatProd (a : Vec 4) {q : E → Vec 4} {x : E} {q' : E → Vec 4} (hq : VFD q x q') :
    VFD (fun y => quatProd a (q y)) x (fun h => quatProd a (q' h)) := by
  have m := fun i j => (hq j).const_mul (a i)
  intro i
  fin_cases i
  · exact (((m 0 0).sub (m 1 1)).sub (m 2 2)).sub (m 3 3)
  · exact (((m 0 1).add (m 1 0)).add (m 2 3)).sub (m 3 2)
  · exact (((m 0 2).sub (m 1 3)).add (m 2 0)).add (m 3 1)
  · exact (((m 0 3).add (m 1 2)).sub (m 2 1)).add (m 3 0)

end Ecm
