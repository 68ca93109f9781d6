/- Property theorems C100, continued: the crystals and loadings with rotations in common
   (src/ecmech/ECMech_slipgeom.h, ECMech_kinetics_VocePL.h, ECMech_kinetics_KMBalD.h, ECMech_evptn.h). -/
import Verif.Props.SharedSym

namespace Ecm.Props
open Ecm Spec Matrix

variable {n nH : ℕ}

/-! ### Slip laws -/

/-- Slip laws (at temperature `T`) under which related systems slip alike, and stress of the other sign gives slip of the
    other sign. -/
structure EvenKin (K : Kin n nH) (T : ℝ) (rel : Fin n → Fin n → Prop) : Prop where
  same : ∀ p h v sc, K.getVals p T h = .ok (v, sc) → ∀ i j, rel i j → ∀ τ,
    (K.evalGdot v i τ).gdot = (K.evalGdot v j τ).gdot ∧ (K.evalGdot v i τ).dtau = (K.evalGdot v j τ).dtau
  odd : ∀ p h v sc, K.getVals p T h = .ok (v, sc) → ∀ i τ,
    (K.evalGdot v i (-τ)).gdot = -(K.evalGdot v i τ).gdot ∧ (K.evalGdot v i (-τ)).dtau = (K.evalGdot v i τ).dtau

theorem EvenKin.slip {K : Kin n nH} {T : ℝ} {rel : Fin n → Fin n → Prop} (hK : EvenKin K T rel)
    {π : Equiv.Perm (Fin n)} {ε : Fin n → ℝ} (he : ∀ i, ε i = 1 ∨ ε i = -1) (hπ : ∀ i, rel i (π i))
    (p : ℝ) (h : Vec nH) (v : K.Vals) (sc : ℝ) (hv : K.getVals p T h = .ok (v, sc)) (i : Fin n) (τ : ℝ) :
    (K.evalGdot v (π i) (ε i * τ)).gdot = ε i * (K.evalGdot v i τ).gdot ∧
    (K.evalGdot v (π i) (ε i * τ)).dtau = (K.evalGdot v i τ).dtau := by
  obtain ⟨a, b⟩ := hK.same p h v sc hv i (π i) (hπ i) (ε i * τ)
  rw [← a, ← b]
  rcases he i with h1 | h1 <;> rw [h1]
  · simp
  · obtain ⟨c, d⟩ := hK.odd p h v sc hv i τ
    rw [neg_one_mul, neg_one_mul]
    exact ⟨c, d⟩

/-- **C100, slip laws.** The power law with one strength treats all systems alike. -/
theorem C100_voce (k : Voce) (hm : 0 < k.xm) (S : Solver 1) (T : ℝ) :
    EvenKin (k.kin S n) T fun _ _ => True where
  same := fun p h v sc _ i j _ τ => ⟨rfl, rfl⟩
  odd := fun p h v sc hv i τ => by
    simp only [Voce.kin] at hv
    split_ifs at hv with h0
    cases hv
    exact ⟨(C24_odd k hm _ τ h0).1, (C24_odd k hm _ τ h0).2.1⟩

/-- **C100, slip laws.** The dislocation kinetics treat systems with equal parameters alike. -/
theorem C100_kmbald {nV : ℕ} [NeZero nV] (k : KMBalD nV) (S : Solver 1) (T : ℝ) (hT : 0 < T)
    (hw : 0 < k.gamWo) (hr : 0 < k.gamRo) (hD : 0 < k.wrD) (hp : 0 < k.p) (hq : 0 < k.q)
    (hc : ∀ j, 0 ≤ k.c1 j * k.muRef) (hgo : k.withGA = true → ∀ j, 0 ≤ k.go j ∧ 0 ≤ k.s j)
    (rel : Fin n → Fin n → Prop)
    (hsame : k.perSS = false ∨ ∀ i j, rel i j → k.c1 (k.iVal i) = k.c1 (k.iVal j) ∧
      k.go (k.iVal i) = k.go (k.iVal j) ∧ k.s (k.iVal i) = k.s (k.iVal j)) :
    EvenKin (k.kin S n) T rel where
  same := fun p h v sc hv i j hij τ => by
    show (k.evalGdot v i τ).gdot = (k.evalGdot v j τ).gdot ∧ (k.evalGdot v i τ).dtau = (k.evalGdot v j τ).dtau
    rcases hsame with h1 | h1
    · simp [KMBalD.evalGdot, KMBalD.iVal, h1]
    · simp only [KMBalD.kin, KMBalD.getVals] at hv
      split_ifs at hv
      cases hv
      obtain ⟨b1, b2, b3⟩ := h1 i j hij
      simp only [KMBalD.evalGdot, KMBalD.xn, KMBalD.xnn, KMBalD.xm, KMBalD.tMin, KMBalD.tMax, b1, b2, b3, and_self]
  odd := fun p h v sc hv i τ => by
    refine ⟨?_, ?_⟩
    · exact (C55_kmbald (n := n) k S T hT hw hr hD hp hq hc hgo (Equiv.refl _) (fun _ => 1) (fun _ => Or.inl rfl)
        (Or.inr fun _ => ⟨rfl, rfl, rfl⟩)).odd p h v sc hv i τ
    · rcases eq_or_ne τ 0 with rfl | ht
      · rw [neg_zero]
      · exact (k.sel_neg ht).2.1

/-! ### Lattices -/

theorem cubicOp_isRot {σ : Equiv.Perm (Fin 3)} {η : Fin 3 → ℤˣ} (h : (cubicOp σ η).det = 1) : IsRot (cubicOp σ η) :=
  ⟨C17_ops_orthogonal.1 σ η, mul_eq_one_comm.1 (C17_ops_orthogonal.1 σ η), h⟩

/-- **C100, lattices.** A cubic crystal does not notice the rotations of the cube. -/
theorem C100_cubic {M : Material n nH} {m s : Fin n → V3} (hl : CubicList m s) {c11 c12 c44 : ℝ}
    (hel : M.el = .cubic c11 c12 c44) {T : ℝ} (hK : EvenKin M.kin T fun _ _ => True) (σ : Equiv.Perm (Fin 3))
    (η : Fin 3 → ℤˣ) (hd : (cubicOp σ η).det = 1) : LatticeSym M m s T (cubicOp σ η) := by
  obtain ⟨π, ε, he, hm⟩ := C55_permutation m s hl σ η
  have hr := cubicOp_isRot hd
  refine ⟨hr, fun v p eV E _ => ?_, π, ε, he, fun i => by rw [← dyad_mulVec]; exact hm i, ?_⟩
  · rw [hel]
    exact latticeStress_turn hr.1 hr.2.1 (cubic_elastSym c11 c12 c44 σ η) (Or.inl rfl) _ _ _ E
  · exact hK.slip he fun _ => trivial

/-- systems of one family of the hexagonal lattice -/
def SameFamily (i j : Fin 24) : Prop :=
  (i.val < 3 ↔ j.val < 3) ∧ (i.val < 6 ↔ j.val < 6) ∧ (i.val < 12 ↔ j.val < 12)

/-- **C100, lattices.** A hexagonal crystal does not notice the rotations of its lattice, if the systems of each family
    slip alike. -/
theorem C100_hexagonal {M : Material 24 nH} {r : ℝ} (hr : 0 < r) {m s : Fin 24 → V3} (hms : hcpMS r = .ok (m, s))
    {c11 c12 c13 c33 c44 g : ℝ} (hel : M.el = .hexag c11 c12 c13 c33 c44 g) {T : ℝ} (hK : EvenKin M.kin T SameFamily)
    {H : T3} (hH : HexOp H) : LatticeSym M m s T H := by
  obtain ⟨m', s', hms', hd, hc⟩ := C17_hcp r hr
  rw [hms] at hms'
  cases hms'
  have hrot := C17_ops_orthogonal.2 H hH
  choose f hfam hf using hc H hH
  obtain ⟨π, ε, hπ, he, hm⟩ := exists_perm hrot.2.1 hd hf
  refine ⟨hrot, fun v p eV E _ => ?_, π, ε, he, hm, ?_⟩
  · rw [hel]
    exact latticeStress_turn hrot.1 hrot.2.1 (hex_elastSym _ _ _ _ _ _ hH) (Or.inr (hex_diag hH)) _ _ _ E
  · exact hK.slip he fun i => by rw [hπ]; exact hfam i

/-! ### Rotations without an axis in common -/

/-- half turns about the first and the third cube axis -/
def cubeTurns : Set T3 := {cubicOp (Equiv.refl _) ![1, -1, -1], cubicOp (Equiv.refl _) ![-1, -1, 1]}

/-- the third of a turn about the body diagonal [111], and a half turn about [1-10] -/
def bodyTurns : Set T3 := {cubicOp (Equiv.addRight 2) ![1, 1, 1], cubicOp (Equiv.swap 0 1) ![-1, -1, -1]}

/-- a sixth of a turn about the axis of the hexagonal lattice, and a half turn about a direction across it -/
def hexTurns : Set T3 := {hexRot, hexFlip}

theorem cubeTurns_noAxis : NoAxis cubeTurns := by
  intro v hv
  have h1 := hv _ (Or.inl rfl)
  have h2 := hv _ (Or.inr rfl)
  have a1 := congrFun h1 1
  have a2 := congrFun h1 2
  have a0 := congrFun h2 0
  simp [Matrix.mulVec, dotProduct, cubicOp, Fin.sum_univ_three] at a0 a1 a2
  ext i
  fin_cases i <;> simp <;> linarith

theorem cubicOp_third (v : V3) : (cubicOp (Equiv.addRight 2) ![1, 1, 1]).mulVec v = ![v 2, v 0, v 1] := by
  have e : ((2 : Fin 3) + 2) = 1 := rfl
  have e' : ((1 : Fin 3) + 2) = 0 := rfl
  ext i
  fin_cases i <;> simp [Matrix.mulVec, dotProduct, cubicOp, Fin.sum_univ_three, e, e']

theorem cubicOp_swap (v : V3) : (cubicOp (Equiv.swap 0 1) ![-1, -1, -1]).mulVec v = ![-v 1, -v 0, -v 2] := by
  have e : Equiv.swap (0 : Fin 3) 1 2 = 2 := by decide
  ext i
  fin_cases i <;> simp [Matrix.mulVec, dotProduct, cubicOp, Fin.sum_univ_three, e]

theorem bodyTurns_noAxis : NoAxis bodyTurns := by
  intro v hv
  have h1 := hv _ (Or.inl rfl)
  have h2 := hv _ (Or.inr rfl)
  rw [cubicOp_third] at h1
  rw [cubicOp_swap] at h2
  have a0 := congrFun h1 0
  have a1 := congrFun h1 1
  have b0 := congrFun h2 0
  have b2 := congrFun h2 2
  simp at a0 a1 b0 b2
  ext i
  fin_cases i <;> simp <;> linarith

theorem hexTurns_noAxis : NoAxis hexTurns := by
  intro v hv
  have h1 := hv _ (Or.inl rfl)
  have h2 := hv _ (Or.inr rfl)
  have b1 := congrFun h2 1
  have b2 := congrFun h2 2
  have a0 := congrFun h1 0
  simp [Matrix.mulVec, dotProduct, hexRot, hexFlip, Fin.sum_univ_three] at a0 b1 b2
  have c1 : v 1 = 0 := by linarith
  rw [c1] at a0
  have c2 : v 2 = 0 := by linarith
  ext i
  fin_cases i <;> simp <;> linarith

/-- **C100, axes.** These rotations have no axis in common. -/
theorem C100_noAxis : NoAxis cubeTurns ∧ NoAxis bodyTurns ∧ NoAxis hexTurns :=
  ⟨cubeTurns_noAxis, bodyTurns_noAxis, hexTurns_noAxis⟩

/-- tensors that share the rotations -/
def Shared (G : Set T3) (A : T3) : Prop := ∀ R ∈ G, R * A * R.transpose = A

theorem conj_dyad (R : T3) (u : V3) : R * dyad u u * R.transpose = dyad (R.mulVec u) (R.mulVec u) := by
  rw [dyad_mulVec]

/-- pulling along `u` at constant volume -/
noncomputable def pullAlong (d : ℝ) (u : V3) : T3 := d • (dyad u u - (dot u u / 3) • (1 : T3))

theorem pull_shared {G : Set T3} {u : V3} (hr : ∀ R ∈ G, R * R.transpose = 1)
    (hu : ∀ R ∈ G, R.mulVec u = u ∨ R.mulVec u = -u) (d : ℝ) : Shared G (pullAlong d u) := by
  intro R hR
  unfold pullAlong
  rw [Matrix.mul_smul, Matrix.smul_mul, Matrix.mul_sub, Matrix.sub_mul, conj_dyad, Matrix.mul_smul, Matrix.smul_mul,
    Matrix.mul_one, hr R hR]
  congr 2
  rcases hu R hR with h | h <;> rw [h]
  ext i j
  simp [dyad]

/-- **C100, tensors.** Stretching along the cube axes, pulling along the body diagonal and pulling along the hexagonal
    axis share these rotations, and the deviatoric tensors that share them have these forms. -/
theorem C100_tensors :
    (∀ A : T3, IsDev A → (Shared cubeTurns A ↔ ∃ a : V3, A = Matrix.diagonal a)) ∧
    (∀ A : T3, IsDev A → (Shared bodyTurns A ↔ ∃ b, A = pullAlong b ![1, 1, 1])) ∧
    (∀ A : T3, IsDev A → (Shared hexTurns A ↔ ∃ d, A = pullAlong d ![0, 0, 1])) := by
  have e : ((2 : Fin 3) + 2) = 1 := rfl
  have e' : ((1 : Fin 3) + 2) = 0 := rfl
  have e3 : Equiv.swap (0 : Fin 3) 1 2 = 2 := by decide
  have e4 : ((0 : Fin 3) + 2) = 2 := rfl
  refine ⟨fun A hA => ⟨fun h => ?_, ?_⟩, fun A hA => ⟨fun h => ?_, ?_⟩, fun A hA => ⟨fun h => ?_, ?_⟩⟩
  · have h1 := h _ (Or.inl rfl)
    have h2 := h _ (Or.inr rfl)
    have key := fun i j => (cubicOp_conj _ _ A i j).symm.trans (congrFun (congrFun h1 i) j)
    have key' := fun i j => (cubicOp_conj _ _ A i j).symm.trans (congrFun (congrFun h2 i) j)
    have a01 := key 0 1
    have a02 := key 0 2
    have a10 := key 1 0
    have a20 := key 2 0
    have a12 := key' 1 2
    have a21 := key' 2 1
    simp at a01 a02 a10 a20 a12 a21
    refine ⟨fun i => A i i, ?_⟩
    ext i j
    fin_cases i <;> fin_cases j <;> simp [Matrix.diagonal_apply] <;> linarith
  · rintro ⟨a, rfl⟩ R hR
    rcases hR with rfl | rfl <;> ext i j <;> rw [cubicOp_conj] <;> fin_cases i <;> fin_cases j <;>
      simp [Matrix.diagonal_apply]
  · have h1 := h _ (Or.inl rfl)
    have key := fun i j => (cubicOp_conj _ _ A i j).symm.trans (congrFun (congrFun h1 i) j)
    have a00 := key 0 0
    have a11 := key 1 1
    have a01 := key 0 1
    have a12 := key 1 2
    obtain ⟨s1, s2, s3, ht⟩ := (isDev_iff A).1 hA
    simp [e, e'] at a00 a11 a01 a12
    refine ⟨A 0 1, ?_⟩
    unfold pullAlong
    ext i j
    fin_cases i <;> fin_cases j <;> simp [dyad, dot, Fin.sum_univ_three] <;> linarith
  · rintro ⟨b, rfl⟩
    refine pull_shared ?_ ?_ b
    · rintro R (rfl | rfl) <;> exact C17_ops_orthogonal.1 _ _
    · rintro R (rfl | rfl)
      · left; rw [cubicOp_third]; rfl
      · right; rw [cubicOp_swap]; ext i; fin_cases i <;> simp
  · have h1 := h _ (Or.inl rfl)
    have h2 := h _ (Or.inr rfl)
    have b01 := congrFun (congrFun h2 0) 1
    have b02 := congrFun (congrFun h2 0) 2
    have a00 := congrFun (congrFun h1 0) 0
    have a12 := congrFun (congrFun h1 1) 2
    simp [hexRot, hexFlip, Matrix.mul_apply, Matrix.vecMul, dotProduct, Fin.sum_univ_three] at b01 b02 a00 a12
    obtain ⟨s1, s2, s3, ht⟩ := (isDev_iff A).1 hA
    have z01 : A 0 1 = 0 := by linarith
    have z02 : A 0 2 = 0 := by linarith
    rw [z01] at s1
    rw [z02] at s2
    rw [z02] at a12
    rw [z01, s1] at a00
    have z12 : A 1 2 = 0 := by linarith
    have q3 : Real.sqrt 3 / 2 * (Real.sqrt 3 / 2) = 3 / 4 := by
      rw [div_mul_div_comm, Real.mul_self_sqrt (by norm_num)]; norm_num
    have z11 : A 1 1 = A 0 0 := by
      have : Real.sqrt 3 / 2 * A 1 1 * (Real.sqrt 3 / 2) = Real.sqrt 3 / 2 * (Real.sqrt 3 / 2) * A 1 1 := by ring
      rw [q3] at this
      linarith
    refine ⟨3 / 2 * A 2 2, ?_⟩
    unfold pullAlong
    ext i j
    fin_cases i <;> fin_cases j <;> simp [dyad, dot, Fin.sum_univ_three] <;> linarith
  · rintro ⟨d, rfl⟩
    refine pull_shared ?_ ?_ d
    · rintro R (rfl | rfl)
      · exact (C17_ops_orthogonal.2 _ (by simpa using HexOp.rot HexOp.one)).1
      · exact (C17_ops_orthogonal.2 _ (by simpa using HexOp.flip HexOp.one)).1
    · rintro R (rfl | rfl)
      · left; ext i; fin_cases i <;> simp [Matrix.mulVec, dotProduct, hexRot, Fin.sum_univ_three]
      · right; ext i; fin_cases i <;> simp [Matrix.mulVec, dotProduct, hexFlip, Fin.sum_univ_three]

/-! ### Histories -/

/-- **C100, crystals.** Over any number of steps of any lengths without spin, with deformation rates that share rotations
    with the lattice (in the orientation at the start), rotations that have no axis in common, from an elastic strain
    that shares them too: the stored orientation stays exactly the same, and the elastic strain goes on sharing the
    rotations. -/
theorem C100_crystals {G : Set T3} {M : Material n nH} {N : ℕ} (t : Trajectory M N)
    (hX : ∀ j < N, SymSolver (turnsOf G) (t.X j).solver)
    {m s : Fin n → V3} (hgeom : M.geom = slipPQ m s) (hsys : ∀ i, IsSlipSystem (m i) (s i))
    (hG : NoAxis G) (hL : ∀ j < N, ∀ R ∈ G, LatticeSym M m s (Step.tK M (t.inp j) (t.m j)) R) (C : T3)
    (hC : C = quatToTensor (histOf (t.m 0)).q) (hq : dot (histOf (t.m 0)).q (histOf (t.m 0)).q = 1)
    (he : Shared G (vecdToSymm (histOf (t.m 0)).e))
    (hi : ∀ j < N, (t.inp j).w = 0 ∧ ∃ A, IsDev A ∧ Shared G A ∧ devOfSvecP (t.inp j).d = C * A * C.transpose) :
    ∀ j < N, (histOf (t.m' j)).q = (histOf (t.m 0)).q ∧ Shared G (vecdToSymm (histOf (t.m' j)).e) ∧
      ∀ R ∈ G, rotSvec (C * R * C.transpose) (t.m' j).stress = (t.m' j).stress := by
  subst hC
  intro j hj
  have hu : qn (histOf (t.m 0)).q = 1 := by rw [← dot_self_quat]; exact hq
  have hr := isRot_of_unit hu
  set C := quatToTensor (histOf (t.m 0)).q with hC
  have hload : ∀ i < N, SymLoad G C (t.inp i) := fun i hij => by
    obtain ⟨hw, A, hA, hs, hD⟩ := hi i hij
    refine ⟨?_, fun R hR => ?_, hw⟩
    · rw [hD]; exact isDev_conj hr.2.1 hA
    · rw [hD, Matrix.transpose_mul, Matrix.transpose_mul, Matrix.transpose_transpose]
      calc C * R * C.transpose * (C * A * C.transpose) * (C * (R.transpose * C.transpose))
          = C * R * (C.transpose * C) * A * (C.transpose * C) * R.transpose * C.transpose := by
            simp only [Matrix.mul_assoc]
        _ = C * (R * A * R.transpose) * C.transpose := by
            rw [hr.2.1, Matrix.mul_one, Matrix.mul_one]; simp only [Matrix.mul_assoc]
        _ = _ := by rw [hs R hR]
  obtain ⟨h1, h2, h3⟩ := C100_history t hX hgeom hsys hG hL ⟨hq, he⟩ hload j hj
  exact ⟨h1, h2.strain, h3⟩

/-- **C100, cube axes.** A cubic crystal stretched in any way along its cube axes, with rates that may change from step
    to step, does not turn, and its elastic strain stays along the cube axes. -/
theorem C100_stretched {M : Material n nH} {N : ℕ} (t : Trajectory M N)
    (hX : ∀ j < N, SymSolver (turnsOf cubeTurns) (t.X j).solver)
    {m s : Fin n → V3} (hgeom : M.geom = slipPQ m s) (hl : CubicList m s) {c11 c12 c44 : ℝ}
    (hel : M.el = .cubic c11 c12 c44)
    (hK : ∀ j < N, EvenKin M.kin (Step.tK M (t.inp j) (t.m j)) fun _ _ => True) (C : T3)
    (hC : C = quatToTensor (histOf (t.m 0)).q) (hq : dot (histOf (t.m 0)).q (histOf (t.m 0)).q = 1)
    (he : ∃ a : V3, vecdToSymm (histOf (t.m 0)).e = Matrix.diagonal a)
    (hi : ∀ j < N, (t.inp j).w = 0 ∧
      ∃ a : V3, a 0 + a 1 + a 2 = 0 ∧ devOfSvecP (t.inp j).d = C * Matrix.diagonal a * C.transpose) :
    ∀ j < N, (histOf (t.m' j)).q = (histOf (t.m 0)).q ∧
      (∃ a : V3, vecdToSymm (histOf (t.m' j)).e = Matrix.diagonal a) ∧
      ∀ R ∈ cubeTurns, rotSvec (C * R * C.transpose) (t.m' j).stress = (t.m' j).stress := by
  intro j hj
  have hlat : ∀ i < N, ∀ R ∈ cubeTurns, LatticeSym M m s (Step.tK M (t.inp i) (t.m i)) R := fun i hij R hR => by
    rcases hR with rfl | rfl <;> refine C100_cubic hl hel (hK i hij) _ _ ?_ <;>
      rw [Matrix.det_fin_three] <;> simp [cubicOp]
  have hload : ∀ i < N, (t.inp i).w = 0 ∧
      ∃ A, IsDev A ∧ Shared cubeTurns A ∧ devOfSvecP (t.inp i).d = C * A * C.transpose := fun i hij => by
    obtain ⟨hw, a, ha, hD⟩ := hi i hij
    have hA : IsDev (Matrix.diagonal a) := by
      rw [isDev_iff]
      simp [Matrix.diagonal_apply]
      linarith
    exact ⟨hw, _, hA, (C100_tensors.1 _ hA).2 ⟨a, rfl⟩, hD⟩
  obtain ⟨h1, h2, h3⟩ := C100_crystals t hX hgeom (cubicList_props hl).1 cubeTurns_noAxis hlat C hC hq
    ((C100_tensors.1 _ (vecdToSymm_isDev _)).2 he) hload j hj
  exact ⟨h1, (C100_tensors.1 _ (vecdToSymm_isDev _)).1 h2, h3⟩

theorem isDev_pull (d : ℝ) (u : V3) : IsDev (pullAlong d u) := by
  rw [isDev_iff]
  simp only [pullAlong, dyad, dot, Fin.sum_univ_three, Matrix.smul_apply, Matrix.sub_apply, Matrix.of_apply,
    Matrix.one_apply, smul_eq_mul]
  refine ⟨?_, ?_, ?_, ?_⟩ <;> simp <;> ring_nf <;> simp

theorem pull_conj (C : T3) (h1 : C * C.transpose = 1) (h2 : C.transpose * C = 1) (d : ℝ) (u : V3) :
    C * pullAlong d u * C.transpose = pullAlong d (C.mulVec u) := by
  have e : dot (C.mulVec u) (C.mulVec u) = dot u u := dot_mulVec_rot h2 u
  unfold pullAlong
  rw [e, Matrix.mul_smul, Matrix.smul_mul, Matrix.mul_sub, Matrix.sub_mul, conj_dyad, Matrix.mul_smul, Matrix.smul_mul,
    Matrix.mul_one, h1]

/-- **C100, body diagonal.** A cubic crystal pulled or pressed along a body diagonal does not turn, and its elastic strain
    is that of pulling along the diagonal. -/
theorem C100_diagonal {M : Material n nH} {N : ℕ} (t : Trajectory M N)
    (hX : ∀ j < N, SymSolver (turnsOf bodyTurns) (t.X j).solver)
    {m s : Fin n → V3} (hgeom : M.geom = slipPQ m s) (hl : CubicList m s) {c11 c12 c44 : ℝ}
    (hel : M.el = .cubic c11 c12 c44)
    (hK : ∀ j < N, EvenKin M.kin (Step.tK M (t.inp j) (t.m j)) fun _ _ => True) (C : T3)
    (hC : C = quatToTensor (histOf (t.m 0)).q) (hq : dot (histOf (t.m 0)).q (histOf (t.m 0)).q = 1)
    (he : ∃ b, vecdToSymm (histOf (t.m 0)).e = pullAlong b ![1, 1, 1])
    (hi : ∀ j < N, (t.inp j).w = 0 ∧ ∃ d, devOfSvecP (t.inp j).d = pullAlong d (C.mulVec ![1, 1, 1])) :
    ∀ j < N, (histOf (t.m' j)).q = (histOf (t.m 0)).q ∧
      (∃ b, vecdToSymm (histOf (t.m' j)).e = pullAlong b ![1, 1, 1]) ∧
      ∀ R ∈ bodyTurns, rotSvec (C * R * C.transpose) (t.m' j).stress = (t.m' j).stress := by
  intro j hj
  have hr : IsRot C := by rw [hC]; exact isRot_of_unit (by rw [← dot_self_quat]; exact hq)
  have hlat : ∀ i < N, ∀ R ∈ bodyTurns, LatticeSym M m s (Step.tK M (t.inp i) (t.m i)) R := fun i hij R hR => by
    have e : ((2 : Fin 3) + 2) = 1 := rfl
    have e' : ((1 : Fin 3) + 2) = 0 := rfl
    have e3 : Equiv.swap (0 : Fin 3) 1 2 = 2 := by decide
    rcases hR with rfl | rfl <;> refine C100_cubic hl hel (hK i hij) _ _ ?_ <;>
      rw [Matrix.det_fin_three] <;> simp [cubicOp, e, e', e3]
  have hload : ∀ i < N, (t.inp i).w = 0 ∧
      ∃ A, IsDev A ∧ Shared bodyTurns A ∧ devOfSvecP (t.inp i).d = C * A * C.transpose := fun i hij => by
    obtain ⟨hw, d, hD⟩ := hi i hij
    exact ⟨hw, pullAlong d ![1, 1, 1], isDev_pull _ _, (C100_tensors.2.1 _ (isDev_pull _ _)).2 ⟨d, rfl⟩,
      by rw [hD, pull_conj C hr.1 hr.2.1]⟩
  obtain ⟨h1, h2, h3⟩ := C100_crystals t hX hgeom (cubicList_props hl).1 bodyTurns_noAxis hlat C hC hq
    ((C100_tensors.2.1 _ (vecdToSymm_isDev _)).2 he) hload j hj
  exact ⟨h1, (C100_tensors.2.1 _ (vecdToSymm_isDev _)).1 h2, h3⟩

/-- **C100, hexagonal axis.** A hexagonal crystal pulled or pressed along its axis does not turn, and its elastic strain is
    that of pulling along the axis. -/
theorem C100_hexAxis {M : Material 24 nH} {N : ℕ} (t : Trajectory M N)
    (hX : ∀ j < N, SymSolver (turnsOf hexTurns) (t.X j).solver)
    {r : ℝ} (hr : 0 < r) {m s : Fin 24 → V3} (hms : hcpMS r = .ok (m, s)) (hgeom : M.geom = slipPQ m s)
    {c11 c12 c13 c33 c44 g : ℝ} (hel : M.el = .hexag c11 c12 c13 c33 c44 g)
    (hK : ∀ j < N, EvenKin M.kin (Step.tK M (t.inp j) (t.m j)) SameFamily) (C : T3)
    (hC : C = quatToTensor (histOf (t.m 0)).q) (hq : dot (histOf (t.m 0)).q (histOf (t.m 0)).q = 1)
    (he : ∃ b, vecdToSymm (histOf (t.m 0)).e = pullAlong b ![0, 0, 1])
    (hi : ∀ j < N, (t.inp j).w = 0 ∧ ∃ d, devOfSvecP (t.inp j).d = pullAlong d (C.mulVec ![0, 0, 1])) :
    ∀ j < N, (histOf (t.m' j)).q = (histOf (t.m 0)).q ∧
      (∃ b, vecdToSymm (histOf (t.m' j)).e = pullAlong b ![0, 0, 1]) ∧
      ∀ R ∈ hexTurns, rotSvec (C * R * C.transpose) (t.m' j).stress = (t.m' j).stress := by
  intro j hj
  have hrC : IsRot C := by rw [hC]; exact isRot_of_unit (by rw [← dot_self_quat]; exact hq)
  obtain ⟨m2, s2, hms2, hsl, -⟩ := C16_hcp r hr
  rw [hms] at hms2
  cases hms2
  have hlat : ∀ i < N, ∀ R ∈ hexTurns, LatticeSym M m s (Step.tK M (t.inp i) (t.m i)) R := fun i hij R hR => by
    refine C100_hexagonal hr hms hel (hK i hij) ?_
    rcases hR with rfl | rfl
    · simpa using HexOp.rot HexOp.one
    · simpa using HexOp.flip HexOp.one
  have hload : ∀ i < N, (t.inp i).w = 0 ∧
      ∃ A, IsDev A ∧ Shared hexTurns A ∧ devOfSvecP (t.inp i).d = C * A * C.transpose := fun i hij => by
    obtain ⟨hw, d, hD⟩ := hi i hij
    exact ⟨hw, pullAlong d ![0, 0, 1], isDev_pull _ _, (C100_tensors.2.2 _ (isDev_pull _ _)).2 ⟨d, rfl⟩,
      by rw [hD, pull_conj C hrC.1 hrC.2.1]⟩
  obtain ⟨h1, h2, h3⟩ := C100_crystals t hX hgeom hsl hexTurns_noAxis hlat C hC hq
    ((C100_tensors.2.2 _ (vecdToSymm_isDev _)).2 he) hload j hj
  exact ⟨h1, (C100_tensors.2.2 _ (vecdToSymm_isDev _)).1 h2, h3⟩

/-- dislocation-density kinetics with one set of strengths, at room temperature -/
noncomputable def evenKM : KMBalD 1 :=
  { withGA := true, pOne := false, qOne := false, perSS := false, muRef := 1, tKRef := 300, c1 := fun _ => 20000
    tauA := 0.004, p := 0.28, q := 1.34, gamWo := 20, gamRo := 1000, wrD := 0.02, go := fun _ => 10e-5
    s := fun _ => 5e-5, k1 := 100, k2o := 10, ninv := 0.05, gammaO := 1e-6, hdnInit := 0.25 }

example (S : Solver 1) : EvenKin (evenKM.kin S 12) 300 fun _ _ => True :=
  C100_kmbald evenKM S 300 (by norm_num) (by norm_num [evenKM]) (by norm_num [evenKM]) (by norm_num [evenKM])
    (by norm_num [evenKM]) (by norm_num [evenKM]) (fun _ => by norm_num [evenKM])
    (fun _ _ => by norm_num [evenKM]) _ (Or.inl rfl)

end Ecm.Props
