/- Property theorems C64 (the slip rates of the dislocation kinetics follow the documented law, including
   density and temperature, up to the cut-offs) and C65 (monotone in the stress up to a relative 1e-8). -/
import Verif.Lemmas.KMLaw
import Verif.Props.KMBalD

namespace Ecm.Props
open Ecm KMBalD

variable {nV : ℕ}

/-! ### C64: specification -/

/-- `|t|^p` with the sign of `t` -/
noncomputable def spow (p t : ℝ) : ℝ := open Classical in if t < 0 then -(|t| ^ p) else |t| ^ p

/-- barrier over thermal energy at normalised stress `t`, zero where the stress exceeds the barrier -/
noncomputable def kmDG (A p q t : ℝ) : ℝ :=
  open Classical in if spow p t < 1 then A * (1 - spow p t) ^ q else 0

/-- rate of thermally activated glide: jumps along the stress minus jumps against it, plus a power law
    that takes over at high stress -/
noncomputable def kmActivated (γw A p q n t tm : ℝ) : ℝ :=
  γw * (Real.exp (-kmDG A p q t) - Real.exp (-kmDG A p q tm)) + 10 * γw * t ^ n

/-- drag limited rate at overstress `s` -/
noncomputable def kmDrag (γr D s : ℝ) : ℝ := γr * (1 - Real.exp (-(s / D)))

/-- the strength of family `j` at dislocation density `ρ` -/
noncomputable def kmStrength (k : KMBalD nV) (j : Fin nV) (ρ : ℝ) : ℝ := k.go j + k.s j * Real.sqrt ρ
/-- athermal part of the resistance -/
noncomputable def kmAth (k : KMBalD nV) (j : Fin nV) (ρ : ℝ) : ℝ :=
  if k.withGA then kmStrength k j ρ else k.tauA
/-- thermally activated part of the resistance -/
noncomputable def kmBar (k : KMBalD nV) (j : Fin nV) (ρ : ℝ) : ℝ :=
  if k.withGA then k.tauA else kmStrength k j ρ
/-- normalised stress along the applied stress -/
noncomputable def kmT (k : KMBalD nV) (j : Fin nV) (ρ τ : ℝ) : ℝ := (|τ| - kmAth k j ρ) / kmBar k j ρ
/-- normalised stress against the applied stress -/
noncomputable def kmTm (k : KMBalD nV) (j : Fin nV) (ρ τ : ℝ) : ℝ := (-|τ| - kmAth k j ρ) / kmBar k j ρ
/-- barrier over thermal energy at temperature `T`, without stress -/
noncomputable def kmA (k : KMBalD nV) (j : Fin nV) (T : ℝ) : ℝ := k.c1 j * k.muRef / T
/-- exponent of the power law, from the reference temperature -/
noncomputable def kmN (k : KMBalD nV) (j : Fin nV) : ℝ := 2 * (k.c1 j * k.muRef) * k.p * k.q / k.tKRef
/-- reference rate of activated glide at density `ρ` -/
noncomputable def kmGamW (k : KMBalD nV) (ρ : ℝ) : ℝ := k.gamWo / Real.sqrt ρ
/-- reference rate of drag limited glide at density `ρ` -/
noncomputable def kmGamR (k : KMBalD nV) (ρ : ℝ) : ℝ := k.gamRo * ρ

/-- magnitude of the slip rate of a system of family `j` at temperature `T`, density `ρ` and resolved
    stress `τ`: activated and drag limited glide in series -/
noncomputable def kmLaw (k : KMBalD nV) (j : Fin nV) (T ρ τ : ℝ) : ℝ :=
  open Classical in
  if |τ| ≤ kmAth k j ρ then 0
  else
    kmActivated (kmGamW k ρ) (kmA k j T) k.p k.q (kmN k j) (kmT k j ρ τ) (kmTm k j ρ τ) *
      kmDrag (kmGamR k ρ) k.wrD (|τ| - kmAth k j ρ) /
    (kmActivated (kmGamW k ρ) (kmA k j T) k.p k.q (kmN k j) (kmT k j ρ τ) (kmTm k j ρ τ) +
      kmDrag (kmGamR k ρ) k.wrD (|τ| - kmAth k j ρ))

/-- the normalised stress is not so close to zero, or to the barrier, that the code replaces it -/
def Ordinary (k : KMBalD nV) (t : ℝ) : Prop :=
  (k.pOne = true ∨ 1 / 10 ^ 90 ≤ |t|) ∧ (1 - spow k.p t ≤ 0 ∨ 1 / 10 ^ 90 ≤ 1 - spow k.p t)

/-- usable parameters for family `j` -/
structure KMParams (k : KMBalD nV) (j : Fin nV) : Prop where
  pOne : k.pOne = true → k.p = 1
  qOne : k.qOne = true → k.q = 1
  p : 0 < k.p
  q : 1 ≤ k.q
  c : 0 < k.c1 j * k.muRef
  tK : 0 < k.tKRef
  D : 0 < k.wrD
  w : 0 < k.gamWo
  r : 0 < k.gamRo

/-! ### C64: lemmas -/

theorem harm_gap {w r : ℝ} (hw : 0 < w) (hr : 0 < r) : r ≤ harm w r + r ^ 2 / w := by
  rw [harm_eq hw hr, div_add_div _ _ (by positivity) hw.ne', le_div_iff₀ (by positivity)]
  nlinarith [pow_pos hr 3]

theorem tiny_eq : idpTinySqrt = 1 / 10 ^ 90 := by unfold idpTinySqrt; norm_num

theorem exp_cut : Real.exp (-(13816 / 100)) ≤ 1 / 10 ^ 60 := by
  have h : (10 : ℝ) ≤ Real.exp (13816 / 6000) := by
    refine le_trans ?_ (Real.sum_le_exp_of_nonneg (by norm_num : (0 : ℝ) ≤ 13816 / 6000) 14)
    norm_num [Finset.sum_range_succ, Nat.factorial]
  have h2 : Real.exp (13816 / 100) = Real.exp (13816 / 6000) ^ 60 := by
    rw [← Real.exp_nat_mul]; norm_num
  rw [Real.exp_neg, ← one_div, h2]
  apply one_div_le_one_div_of_le (by norm_num)
  exact pow_le_pow_left₀ (by norm_num) h 60

theorem pFunc_spow (k : KMBalD nV) (hp1 : k.pOne = true → k.p = 1) {t : ℝ}
    (h : k.pOne = true ∨ 1 / 10 ^ 90 ≤ |t|) : k.pFunc t = spow k.p t := by
  unfold KMBalD.pFunc spow
  by_cases hp : k.pOne = true
  · rw [if_pos hp, hp1 hp]
    simp only [Real.rpow_one]
    split_ifs with h0
    · rw [abs_of_neg h0]; ring
    · rw [abs_of_nonneg (not_lt.1 h0)]
  · rw [if_neg hp]
    have h1 : 1 / 10 ^ 90 ≤ |t| := h.resolve_left hp
    rw [if_neg (by rw [tiny_eq]; exact not_lt.2 h1)]
    unfold copysign
    rw [abs_of_nonneg (Real.rpow_nonneg (abs_nonneg _) _)]

/-- the exponent of the code is the barrier over thermal energy -/
theorem mtsDG_spec (k : KMBalD nV) (hp1 : k.pOne = true → k.p = 1) (hq1 : k.qOne = true → k.q = 1)
    {A d t : ℝ} (h : Ordinary k t) : (k.mtsDG A d t).1 = -kmDG A k.p k.q t := by
  rw [mtsDG_fst, pFunc_spow k hp1 h.1]
  unfold KMBalD.qPow kmDG
  rw [tiny_eq]
  rcases h.2 with h2 | h2
  · rw [if_pos (lt_of_le_of_lt h2 (by norm_num)), if_neg (by linarith)]; simp
  · have hs : spow k.p t < 1 := by
      have : (0 : ℝ) < 1 / 10 ^ 90 := by norm_num
      linarith
    rw [if_neg (not_lt.2 h2), if_pos hs]
    split_ifs with hq
    · rw [hq1 hq, Real.rpow_one]; ring
    · ring

theorem kmXnn (k : KMBalD nV) (j : Fin nV) : k.xn j + 1 = kmN k j := by
  unfold KMBalD.xn KMBalD.xnn KMBalD.xm kmN
  rw [one_div_one_div]; ring

theorem kmXm (k : KMBalD nV) (j : Fin nV) : k.xm j = 1 / kmN k j := by
  unfold KMBalD.xm kmN
  congr 1; ring

theorem kmN_pos {k : KMBalD nV} {j : Fin nV} (h : KMParams k j) : 0 < kmN k j := by
  unfold kmN
  have := h.c; have := h.p; have := h.tK
  have hq : 0 < k.q := one_pos.trans_le h.q
  positivity

theorem kmDG_nonneg {A p q t : ℝ} (hA : 0 ≤ A) : 0 ≤ kmDG A p q t := by
  unfold kmDG
  split_ifs with h
  · exact mul_nonneg hA (Real.rpow_nonneg (by linarith) _)
  · exact le_refl _

theorem spow_mono {p s t : ℝ} (hp : 0 < p) (h : s ≤ t) : spow p s ≤ spow p t := by
  unfold spow
  by_cases hs : s < 0
  · rw [if_pos hs]
    by_cases ht : t < 0
    · rw [if_pos ht]
      have : |t| ^ p ≤ |s| ^ p := Real.rpow_le_rpow (abs_nonneg _)
        (by rw [abs_of_neg hs, abs_of_neg ht]; linarith) hp.le
      linarith
    · rw [if_neg ht]
      have := Real.rpow_nonneg (abs_nonneg s) p
      have := Real.rpow_nonneg (abs_nonneg t) p
      linarith
  · rw [if_neg hs, if_neg (by linarith)]
    exact Real.rpow_le_rpow (abs_nonneg _)
      (by rw [abs_of_nonneg (not_lt.1 hs), abs_of_nonneg (by linarith)]; exact h) hp.le

theorem kmDG_anti {A p q s t : ℝ} (hA : 0 ≤ A) (hp : 0 < p) (hq : 0 < q) (h : s ≤ t) :
    kmDG A p q t ≤ kmDG A p q s := by
  have hm := spow_mono hp h
  by_cases ht : spow p t < 1
  · unfold kmDG
    rw [if_pos ht, if_pos (by linarith)]
    exact mul_le_mul_of_nonneg_left (Real.rpow_le_rpow (by linarith) (by linarith) hq.le) hA
  · have : kmDG A p q t = 0 := by unfold kmDG; rw [if_neg ht]
    rw [this]; exact kmDG_nonneg hA

/-- where the jumps along the stress are cut off, the power law is negligible too, from half the
    reference temperature on -/
theorem power_small {k : KMBalD nV} {j : Fin nV} (h : KMParams k j) {T t : ℝ} (hT : 0 < T)
    (hT2 : k.tKRef ≤ 2 * T) (ht : 0 < t) (hcut : 13816 / 100 ≤ kmDG (kmA k j T) k.p k.q t) :
    t ^ kmN k j ≤ 1 / 10 ^ 60 := by
  have hq : 0 < k.q := one_pos.trans_le h.q
  have hs : spow k.p t < 1 := by
    by_contra hc
    unfold kmDG at hcut; rw [if_neg hc] at hcut; norm_num at hcut
  have hsp : spow k.p t = t ^ k.p := by
    unfold spow; rw [if_neg (not_lt.2 ht.le), abs_of_pos ht]
  unfold kmDG at hcut
  rw [if_pos hs, hsp] at hcut
  rw [hsp] at hs
  have htp : 0 < t ^ k.p := Real.rpow_pos_of_pos ht _
  have h1 : k.p * Real.log t ≤ -(1 - t ^ k.p) := by
    have := Real.log_le_sub_one_of_pos htp
    rw [Real.log_rpow ht] at this
    linarith
  have h2 : (1 - t ^ k.p) ^ k.q ≤ 1 - t ^ k.p := by
    have := Real.rpow_le_rpow_of_exponent_ge (x := 1 - t ^ k.p) (by linarith) (by linarith) h.q
    rwa [Real.rpow_one] at this
  have hA : 0 < kmA k j T := div_pos h.c hT
  have e : kmN k j = (2 * T / k.tKRef) * k.q * kmA k j T * k.p := by
    unfold kmN kmA
    have := h.tK.ne'; have := hT.ne'
    field_simp
  have hr : 1 ≤ 2 * T / k.tKRef := by rw [le_div_iff₀ h.tK]; linarith
  have h3 : kmN k j * Real.log t ≤ -(13816 / 100) := by
    rw [e, mul_assoc]
    have h4 : 1 ≤ 2 * T / k.tKRef * k.q := by nlinarith [h.q]
    have h5 : kmA k j T * (k.p * Real.log t) ≤ -(13816 / 100) := by
      have := mul_le_mul_of_nonneg_left (h1.trans (neg_le_neg h2)) hA.le
      linarith
    have : 2 * T / k.tKRef * k.q * kmA k j T * (k.p * Real.log t) =
      2 * T / k.tKRef * k.q * (kmA k j T * (k.p * Real.log t)) := by ring
    rw [this]
    nlinarith
  rw [Real.rpow_def_of_pos ht, mul_comm]
  exact (Real.exp_le_exp.2 h3).trans exp_cut

/-- the activated rate of the code against the documented one -/
theorem activated_near {k : KMBalD nV} {j : Fin nV} (h : KMParams k j) {T γw gI gAth a : ℝ}
    (hT : 0 < T) (hT2 : k.tKRef ≤ 2 * T) (hγ : 0 < γw) (hg : 0 < gI) (ha : 0 ≤ a)
    (hpos : 0 < a - gAth) (ho : Ordinary k ((a - gAth) * gI)) (hom : Ordinary k ((-a - gAth) * gI))
    (hro : 1 / 10 ^ 60 ≤ Real.exp (-kmDG (kmA k j T) k.p k.q ((a - gAth) * gI)) -
        Real.exp (-kmDG (kmA k j T) k.p k.q ((-a - gAth) * gI)) ∨
      13816 / 100 ≤ kmDG (kmA k j T) k.p k.q ((-a - gAth) * gI)) :
    (k.thermal γw (kmA k j T) gI gAth a = none →
      kmActivated γw (kmA k j T) k.p k.q (kmN k j) ((a - gAth) * gI) ((-a - gAth) * gI)
        ≤ 11 / 10 ^ 60 * γw) ∧
    ∀ w, k.thermal γw (kmA k j T) gI gAth a = some w →
      |addPower γw gI gAth (k.xn j) (k.tMin j) a w.1 -
        kmActivated γw (kmA k j T) k.p k.q (kmN k j) ((a - gAth) * gI) ((-a - gAth) * gI)|
        ≤ 11 / 10 ^ 60 * γw := by
  have hA : 0 < kmA k j T := div_pos h.c hT
  have hq : 0 < k.q := one_pos.trans_le h.q
  have hn := kmN_pos h
  have htp : 0 < (a - gAth) * gI := mul_pos hpos hg
  have eF := mtsDG_spec k h.pOne h.qOne (A := kmA k j T) (d := gI) ho
  have eB := mtsDG_spec k h.pOne h.qOne (A := kmA k j T) (d := gI) hom
  have habs : |a| = a := abs_of_nonneg ha
  have hle : (-a - gAth) * gI ≤ (a - gAth) * gI := mul_le_mul_of_nonneg_right (by linarith) hg.le
  have hanti := kmDG_anti (q := k.q) hA.le h.p hq hle
  unfold kmActivated
  simp only [thermal, habs, eF, eB]
  set t := (a - gAth) * gI with ht
  set tm := (-a - gAth) * gI with htm
  set Gf := kmDG (kmA k j T) k.p k.q t with hGf
  set Gb := kmDG (kmA k j T) k.p k.q tm with hGb
  have hpow0 : 0 ≤ t ^ kmN k j := Real.rpow_nonneg htp.le _
  have hB0 := Real.exp_pos (-Gb)
  have hF0 := Real.exp_pos (-Gf)
  have hcutF : ∀ G : ℝ, 13816 / 100 ≤ G → Real.exp (-G) ≤ 1 / 10 ^ 60 := fun G hG =>
    (Real.exp_le_exp.2 (by linarith)).trans exp_cut
  have hadd : ∀ w : ℝ, |addPower γw gI gAth (k.xn j) (k.tMin j) a w - (w + 10 * γw * t ^ kmN k j)|
      ≤ 10 / 10 ^ 60 * γw := by
    intro w
    rw [addPower_eq htp hpos, kmXnn]
    split_ifs with hc
    · have e : w + γw * 10 * ((a - gAth) * gI) ^ kmN k j - (w + 10 * γw * t ^ kmN k j) = 0 := by
        rw [← ht]; ring
      rw [e, abs_zero]; positivity
    · have h1 : t ^ kmN k j ≤ 1 / 10 ^ 60 := by
        have h2 := Real.rpow_le_rpow htp.le (not_lt.1 hc) hn.le
        have h3 : k.tMin j ^ kmN k j = 1 / 10 ^ 60 := by
          unfold KMBalD.tMin
          rw [kmXm, ← Real.rpow_mul gamRatioMin_pos.le, one_div_mul_cancel hn.ne', Real.rpow_one]
          unfold gamRatioMin; norm_num
        exact h2.trans h3.le
      have e : w - (w + 10 * γw * t ^ kmN k j) = -(10 * γw * t ^ kmN k j) := by ring
      rw [e, abs_neg, abs_of_nonneg (by positivity)]
      nlinarith
  constructor
  · intro hnone
    split_ifs at hnone with h1 h2 h3
    · unfold lnGamRatioMin at h1
      have h4 := power_small h hT hT2 htp (show 13816 / 100 ≤ Gf by linarith)
      have h5 := hcutF Gf (by linarith)
      nlinarith
    · exfalso
      unfold lnGamRatioMin at h2
      have h4 := hro.resolve_right (by linarith)
      have e : (γw * Real.exp (-Gf) - γw * Real.exp (-Gb)) / γw = Real.exp (-Gf) - Real.exp (-Gb) := by
        field_simp
      rw [e, abs_of_nonneg (by have : (0 : ℝ) < 1 / 10 ^ 60 := by norm_num
                               linarith)] at h3
      unfold gamRatioMin at h3
      have e60 : (1 : ℝ) / 10 ^ 60 = 1 / 10 ^ 60 := rfl
      linarith
  · intro w hw
    split_ifs at hw with h1 h2 h3
    · simp only [Option.some.injEq] at hw
      have := hadd w.1
      rw [← hw] at this ⊢
      simp only at this ⊢
      have e : γw * Real.exp (-Gf) - γw * Real.exp (-Gb) + 10 * γw * t ^ kmN k j
        = γw * (Real.exp (-Gf) - Real.exp (-Gb)) + 10 * γw * t ^ kmN k j := by ring
      rw [e] at this
      refine this.trans ?_
      nlinarith
    · simp only [Option.some.injEq] at hw
      have := hadd w.1
      rw [← hw] at this ⊢
      simp only at this ⊢
      have h4 : Real.exp (-Gb) ≤ 1 / 10 ^ 60 := hcutF Gb (by unfold lnGamRatioMin at h2; linarith)
      have h5 : γw * Real.exp (-Gb) ≤ 1 / 10 ^ 60 * γw := by nlinarith
      have h6 : 0 < γw * Real.exp (-Gb) := mul_pos hγ hB0
      rw [abs_le] at this ⊢
      constructor <;> nlinarith [this.1, this.2]

/-! ### C64: theorems -/

/-- **C64, values.** The values handed to the slip law are the documented functions of density and
    temperature; the hardness scale is the mean strength of the families and the reference rate the
    sum of both reference rates. -/
theorem C64_values [NeZero nV] (k : KMBalD nV) (S : Solver 1) (n : ℕ) (T : ℝ) (h : Vec 1)
    (v : KMVals nV) (sc : ℝ) (hv : k.getVals T h = .ok (v, sc)) :
    0 < h 0 ∧ T ≠ 0 ∧ v.gamW = kmGamW k (h 0) ∧ v.gamR = kmGamR k (h 0) ∧
    (∀ j, v.g j = kmStrength k j (h 0)) ∧ (∀ j, v.ct j * k.muRef = kmA k j T) ∧
    sc = (∑ j, kmStrength k j (h 0)) / nV ∧
    (k.kin S n).fixedRefRate v = kmGamW k (h 0) + kmGamR k (h 0) := by
  unfold KMBalD.getVals at hv
  simp only at hv
  split_ifs at hv with h1 h2 h3 h4
  obtain ⟨rfl, rfl⟩ := Prod.mk.inj (Out.ok.inj hv)
  have hr : k.gamRo * Real.sqrt (h 0) * Real.sqrt (h 0) = k.gamRo * h 0 := by
    rw [mul_assoc, Real.mul_self_sqrt (not_le.1 h1).le]
  refine ⟨not_le.1 h1, h2, rfl, hr, fun _ => rfl, fun j => ?_, ?_, ?_⟩
  · unfold kmA; simp only; ring
  · unfold kmStrength; ring
  · show k.gamWo / Real.sqrt (h 0) + k.gamRo * Real.sqrt (h 0) * Real.sqrt (h 0) = _
    rw [hr]; rfl

set_option maxHeartbeats 1000000 in
/-- **C64, law.** At any stress, from half the reference temperature on, the magnitude of the slip rate
    is the documented one up to the cut-offs of the code: relative 1e-8 from the linearised drag
    exponential, absolute 1.1e-59 (activated) and 1e-60 (drag) reference rates, and the ratio of the
    rates over 1e61 where activated glide is taken as instantaneous. -/
theorem C64_law [NeZero nV] {n : ℕ} (k : KMBalD nV) (i : Fin n) (hk : KMParams k (k.iVal i)) (T : ℝ)
    (hT : 0 < T) (hT2 : k.tKRef ≤ 2 * T) (h : Vec 1) (v : KMVals nV) (sc : ℝ)
    (hv : k.getVals T h = .ok (v, sc)) (τ : ℝ) (hτ : τ ≠ 0)
    (ho : Ordinary k (kmT k (k.iVal i) (h 0) τ)) (hom : Ordinary k (kmTm k (k.iVal i) (h 0) τ))
    (hro : 1 / 10 ^ 60 ≤ Real.exp (-kmDG (kmA k (k.iVal i) T) k.p k.q (kmT k (k.iVal i) (h 0) τ)) -
        Real.exp (-kmDG (kmA k (k.iVal i) T) k.p k.q (kmTm k (k.iVal i) (h 0) τ)) ∨
      13816 / 100 ≤ kmDG (kmA k (k.iVal i) T) k.p k.q (kmTm k (k.iVal i) (h 0) τ)) :
    kmLaw k (k.iVal i) T (h 0) τ - (11 / 10 ^ 60 * kmGamW k (h 0) + 1 / 10 ^ 60 * kmGamR k (h 0))
      ≤ |(k.evalGdot v i τ).gdot| ∧
    |(k.evalGdot v i τ).gdot| ≤ (kmLaw k (k.iVal i) T (h 0) τ + 11 / 10 ^ 60 * kmGamW k (h 0) +
      kmGamR k (h 0) ^ 2 / (10 ^ 61 * kmGamW k (h 0))) * (1 + 1 / 10 ^ 8) := by
  obtain ⟨hρ, -, hw, hr, hg, hct, -, -⟩ := C64_values k (fun _ _ _ x0 => { converged := false, x := x0, xLast := x0, nFEvals := 0 }) n T h v sc hv
  set j := k.iVal i with hj
  have hsq : 0 < Real.sqrt (h 0) := Real.sqrt_pos.2 hρ
  have hγw : 0 < kmGamW k (h 0) := div_pos hk.w hsq
  have hγr : 0 < kmGamR k (h 0) := mul_pos hk.r hρ
  have hb : 0 < kmBar k j (h 0) := by
    unfold KMBalD.getVals at hv
    simp only at hv
    split_ifs at hv with h1 h2 h3 h4
    unfold kmBar
    split_ifs with hga
    · exact not_le.1 fun hh => h4 ⟨hga, hh⟩
    · exact not_le.1 fun hh => h3 ⟨by simpa using hga, j, hh⟩
  have hAth : (if k.withGA then v.g j else k.tauA) = kmAth k j (h 0) := by
    unfold kmAth; rw [hg]
  have hgI : (if k.withGA then 1 / k.tauA else 1 / v.g j) = 1 / kmBar k j (h 0) := by
    unfold kmBar; rw [hg]; split_ifs <;> rfl
  have hm : |(k.evalGdot v i τ).gdot| = k.mag (kmGamW k (h 0)) (kmGamR k (h 0)) (kmA k j T)
      (1 / kmBar k j (h 0)) (kmAth k j (h 0)) (k.xn j) (k.tMin j) (k.tMax j) |τ| := by
    unfold KMBalD.evalGdot
    simp only [← hj]
    rw [k.sel_mag (by rw [hr]; exact hγr) hk.D, if_neg (fun hc => hτ hc.2), abs_copysign, hAth, hgI,
      hw, hr, hct]
    exact abs_of_nonneg (k.mag_nonneg hγw hγr (div_pos hk.c hT).le (one_div_pos.2 hb) hk.p
      (one_pos.trans_le hk.q))
  rw [hm]
  set γw := kmGamW k (h 0)
  set γr := kmGamR k (h 0)
  set ath := kmAth k j (h 0) with hath
  set b := kmBar k j (h 0) with hbdef
  have hgI0 : 0 < 1 / b := one_div_pos.2 hb
  have et : kmT k j (h 0) τ = (|τ| - ath) * (1 / b) := by unfold kmT; rw [← hath, ← hbdef]; ring
  have etm : kmTm k j (h 0) τ = (-|τ| - ath) * (1 / b) := by unfold kmTm; rw [← hath, ← hbdef]; ring
  rw [et] at ho hro
  rw [etm] at hom hro
  have hA : 0 < kmA k j T := div_pos hk.c hT
  have hq : 0 < k.q := one_pos.trans_le hk.q
  have hn := kmN_pos hk
  have hmag0 := k.mag_nonneg (gAth := ath) (xn := k.xn j) (tMin := k.tMin j) (tMax := k.tMax j)
    (a := |τ|) hγw hγr hA.le hgI0 hk.p hq
  have hx3 : 0 ≤ γr ^ 2 / (10 ^ 61 * γw) := by positivity
  by_cases hle : |τ| ≤ ath
  · have hz : k.mag γw γr (kmA k j T) (1 / b) ath (k.xn j) (k.tMin j) (k.tMax j) |τ| = 0 := by
      unfold KMBalD.mag
      rw [if_pos]
      exact lt_of_le_of_lt (div_nonpos_of_nonpos_of_nonneg (by linarith) hk.D.le) gamRatioMin_pos
    have hl : kmLaw k j T (h 0) τ = 0 := by unfold kmLaw; rw [if_pos hle]
    rw [hz, hl]
    constructor
    · nlinarith
    · positivity
  have hpos : 0 < |τ| - ath := by linarith [not_le.1 hle]
  have hx0 : 0 < (|τ| - ath) / k.wrD := div_pos hpos hk.D
  set W := kmActivated γw (kmA k j T) k.p k.q (kmN k j) ((|τ| - ath) * (1 / b))
    ((-|τ| - ath) * (1 / b)) with hW
  set R := kmDrag γr k.wrD (|τ| - ath) with hR
  have hlaw : kmLaw k j T (h 0) τ = W * R / (W + R) := by
    unfold kmLaw; rw [if_neg hle, et, etm]
  have htp : 0 < (|τ| - ath) * (1 / b) := mul_pos hpos hgI0
  have hJ : 0 ≤ Real.exp (-kmDG (kmA k j T) k.p k.q ((|τ| - ath) * (1 / b))) -
      Real.exp (-kmDG (kmA k j T) k.p k.q ((-|τ| - ath) * (1 / b))) := by
    have := kmDG_anti (q := k.q) hA.le hk.p hq (mul_le_mul_of_nonneg_right
      (show -|τ| - ath ≤ |τ| - ath by linarith [abs_nonneg τ]) hgI0.le)
    have := Real.exp_le_exp.2 (neg_le_neg this)
    linarith
  have hpw : 0 < ((|τ| - ath) * (1 / b)) ^ kmN k j := Real.rpow_pos_of_pos htp _
  have hWge : 10 * γw * ((|τ| - ath) * (1 / b)) ^ kmN k j ≤ W := by
    rw [hW]; unfold kmActivated; nlinarith [mul_nonneg hγw.le hJ]
  have hW0 : 0 < W := lt_of_lt_of_le (by positivity) hWge
  obtain ⟨hd1, hd2⟩ := dragRate_bounds (gamR := γr) hγr hx0.le
  have hRe : γr * (1 - Real.exp (-((|τ| - ath) / k.wrD))) = R := rfl
  rw [hRe] at hd1 hd2
  have hR0 : 0 < R := by
    rw [hR]; unfold kmDrag
    have : Real.exp (-((|τ| - ath) / k.wrD)) < 1 := by rw [Real.exp_lt_one_iff]; linarith
    exact mul_pos hγr (by linarith)
  have hRr : R ≤ γr := by
    rw [hR]; unfold kmDrag
    nlinarith [Real.exp_pos (-((|τ| - ath) / k.wrD))]
  have hh : kmLaw k j T (h 0) τ = harm W R := by rw [hlaw, harm_eq hW0 hR0]
  rw [hh]
  have hharm0 := harm_pos hW0 hR0
  have hDr0 := hR0.trans_le hd1
  by_cases h1 : (|τ| - ath) / k.wrD < gamRatioMin
  · have hz : k.mag γw γr (kmA k j T) (1 / b) ath (k.xn j) (k.tMin j) (k.tMax j) |τ| = 0 := by
      unfold KMBalD.mag; rw [if_pos h1]
    rw [hz]
    constructor
    · have hRs : R ≤ 1 / 10 ^ 60 * γr := by
        have h2 : R ≤ γr * ((|τ| - ath) / k.wrD) := by
          rw [hR]; unfold kmDrag
          have := Real.add_one_le_exp (-((|τ| - ath) / k.wrD))
          exact mul_le_mul_of_nonneg_left (by linarith) hγr.le
        have h3 : (|τ| - ath) / k.wrD ≤ 1 / 10 ^ 60 := by
          refine h1.le.trans (le_of_eq ?_)
          unfold gamRatioMin; norm_num
        nlinarith
      have := harm_le_right hW0 hR0
      have : 0 < 11 / 10 ^ 60 * γw := by positivity
      linarith
    · positivity
  have hat : max 0 (|τ| - ath) * (1 / b) = (|τ| - ath) * (1 / b) := by rw [max_eq_right hpos.le]
  by_cases h2 : k.tMax j < max 0 (|τ| - ath) * (1 / b)
  · have hz : k.mag γw γr (kmA k j T) (1 / b) ath (k.xn j) (k.tMin j) (k.tMax j) |τ| =
        dragRate γr ((|τ| - ath) / k.wrD) := by
      unfold KMBalD.mag; rw [if_neg h1, if_pos h2]
    rw [hz]
    rw [hat] at h2
    have hbig : 10 ^ 60 ≤ ((|τ| - ath) * (1 / b)) ^ kmN k j := by
      have h3 : k.tMax j ^ kmN k j = 10 ^ 60 := by
        unfold KMBalD.tMax
        have h0 : (0 : ℝ) ≤ gamRatioOvf := by unfold gamRatioOvf; norm_num
        rw [kmXm, ← Real.rpow_mul h0, one_div_mul_cancel hn.ne', Real.rpow_one]
        unfold gamRatioOvf; norm_num
      rw [← h3]
      refine Real.rpow_le_rpow ?_ h2.le hn.le
      unfold KMBalD.tMax
      exact Real.rpow_nonneg (by unfold gamRatioOvf; norm_num) _
    have hWbig : 10 ^ 61 * γw ≤ W := by
      refine le_trans ?_ hWge
      nlinarith
    constructor
    · have := harm_le_right hW0 hR0
      have : 0 < 11 / 10 ^ 60 * γw + 1 / 10 ^ 60 * γr := by positivity
      linarith
    · refine hd2.trans (mul_le_mul_of_nonneg_right ?_ (by norm_num))
      have h3 : R ≤ harm W R + R ^ 2 / W := by
        exact harm_gap hW0 hR0
      have h4 : R ^ 2 / W ≤ γr ^ 2 / (10 ^ 61 * γw) :=
        div_le_div₀ (by positivity) (pow_le_pow_left₀ hR0.le hRr 2) (by positivity) hWbig
      have : 0 < 11 / 10 ^ 60 * γw := by positivity
      linarith
  obtain ⟨hn1, hn2⟩ := activated_near hk hT hT2 hγw hgI0 (abs_nonneg τ) hpos ho hom hro
  have hε : 0 < 11 / 10 ^ 60 * γw := by positivity
  have hε2 : 0 < 1 / 10 ^ 60 * γr := by positivity
  cases hth : k.thermal γw (kmA k j T) (1 / b) ath |τ| with
  | none =>
    have hz : k.mag γw γr (kmA k j T) (1 / b) ath (k.xn j) (k.tMin j) (k.tMax j) |τ| = 0 := by
      unfold KMBalD.mag; rw [if_neg h1, if_neg h2, hth]; rfl
    rw [hz]
    constructor
    · have h3 := hn1 hth
      have := harm_le_left hW0 hR0
      linarith
    · positivity
  | some w =>
    have hz : k.mag γw γr (kmA k j T) (1 / b) ath (k.xn j) (k.tMin j) (k.tMax j) |τ| =
        harm (addPower γw (1 / b) ath (k.xn j) (k.tMin j) |τ| w.1)
          (dragRate γr ((|τ| - ath) / k.wrD)) := by
      unfold KMBalD.mag; rw [if_neg h1, if_neg h2, hth]; rfl
    rw [hz]
    have hw0 : 0 < w.1 := by
      obtain ⟨w1, d, e⟩ := w
      exact k.thermal_pos hγw hA.le hgI0 hk.p hq hth
    have hP := addPower_pos (xn := k.xn j) (tMin := k.tMin j) (gAth := ath) (a := |τ|) hγw hgI0 hw0
    have hdiff := abs_le.1 (hn2 w hth)
    set P := addPower γw (1 / b) ath (k.xn j) (k.tMin j) |τ| w.1
    constructor
    · have h3 : harm W R ≤ harm P R + 11 / 10 ^ 60 * γw := by
        rcases le_total P W with hPW | hPW
        · have := harm_lip hP hR0 hPW
          linarith [hdiff.1]
        · have := harm_mono hW0 hR0 hPW le_rfl
          linarith
      have h4 := harm_mono hP hR0 le_rfl hd1
      linarith
    · have h3 : harm P R ≤ harm W R + 11 / 10 ^ 60 * γw := by
        rcases le_total W P with hPW | hPW
        · have := harm_lip hW0 hR0 hPW
          linarith [hdiff.2]
        · have := harm_mono hP hR0 hPW le_rfl
          linarith
      have h4 := (harm_mono hP hDr0 le_rfl hd2).trans (harm_scale hP hR0 (by norm_num))
      refine h4.trans (mul_le_mul_of_nonneg_right ?_ (by norm_num))
      linarith

/-- hypotheses of `C64_values` and `C64_law`: unit density and temperature, twice the threshold -/
example : KMParams kmExample (kmExample.iVal (0 : Fin 12)) ∧ (0 : ℝ) < 1 ∧ kmExample.tKRef ≤ 2 * 1 ∧
    (∃ v sc, kmExample.getVals 1 (fun _ => 1) = .ok (v, sc)) ∧ (2 : ℝ) ≠ 0 ∧
    Ordinary kmExample (kmT kmExample (kmExample.iVal (0 : Fin 12)) 1 2) ∧
    Ordinary kmExample (kmTm kmExample (kmExample.iVal (0 : Fin 12)) 1 2) ∧
    1 / 10 ^ 60 ≤ Real.exp (-kmDG (kmA kmExample (kmExample.iVal (0 : Fin 12)) 1) kmExample.p
        kmExample.q (kmT kmExample (kmExample.iVal (0 : Fin 12)) 1 2)) -
      Real.exp (-kmDG (kmA kmExample (kmExample.iVal (0 : Fin 12)) 1) kmExample.p kmExample.q
        (kmTm kmExample (kmExample.iVal (0 : Fin 12)) 1 2)) := by
  have ej : kmExample.iVal (0 : Fin 12) = 0 := Subsingleton.elim _ _
  rw [ej]
  have et : kmT kmExample 0 1 2 = 1 / 4 := by
    norm_num [kmT, kmAth, kmBar, kmStrength, kmExample]
  have etm : kmTm kmExample 0 1 2 = -(3 / 4) := by
    norm_num [kmTm, kmAth, kmBar, kmStrength, kmExample]
  have ep : kmExample.p = 1 := rfl
  have eq : kmExample.q = 1 := rfl
  have eA : kmA kmExample 0 1 = 1 := by norm_num [kmA, kmExample]
  have s1 : spow 1 (1 / 4) = 1 / 4 := by
    unfold spow; rw [if_neg (by norm_num), Real.rpow_one, abs_of_pos (by norm_num)]
  have s2 : spow 1 (-(3 / 4)) = -(3 / 4) := by
    unfold spow; rw [if_pos (by norm_num), Real.rpow_one, abs_of_neg (by norm_num)]; norm_num
  refine ⟨?_, by norm_num, by norm_num [kmExample], ?_, by norm_num, ?_, ?_, ?_⟩
  · constructor <;> norm_num [kmExample]
  · refine ⟨{ gamW := 1, gamR := 1, g := fun _ => 1, ct := fun _ => 1 }, 1, ?_⟩
    unfold KMBalD.getVals
    simp only
    rw [if_neg (by norm_num), if_neg (by norm_num), if_neg (by simp [kmExample]),
      if_neg (by norm_num [kmExample])]
    simp [kmExample]
  · rw [et]
    refine ⟨Or.inl rfl, Or.inr ?_⟩
    rw [ep, s1]; norm_num
  · rw [etm]
    refine ⟨Or.inl rfl, Or.inr ?_⟩
    rw [ep, s2]; norm_num
  · rw [et, etm, ep, eq, eA]
    unfold kmDG
    rw [s1, s2, if_pos (by norm_num), if_pos (by norm_num), Real.rpow_one, Real.rpow_one]
    have h1 := Real.add_one_le_exp (-(3 / 4 : ℝ))
    have h2 : Real.exp (-(7 / 4)) * 2 ≤ Real.exp (-(3 / 4)) := by
      have h3 : Real.exp (-(3 / 4 : ℝ)) = Real.exp (-(7 / 4)) * Real.exp 1 := by
        rw [← Real.exp_add]; norm_num
      rw [h3]
      have := Real.add_one_le_exp (1 : ℝ)
      exact mul_le_mul_of_nonneg_left (by linarith) (Real.exp_pos _).le
    norm_num at h1 h2 ⊢
    have : (1 : ℝ) / 10 ^ 60 ≤ 1 / 8 := by norm_num
    norm_num at this
    linarith

/-- a stiff barrier (power law exponent 20), athermal strength 1 -/
noncomputable def kmCold : KMBalD 1 :=
  { withGA := true, pOne := true, qOne := true, perSS := false, muRef := 1, tKRef := 1,
    c1 := fun _ => 10, tauA := 4, p := 1, q := 1, gamWo := 1, gamRo := 1, wrD := 1, go := fun _ => 0,
    s := fun _ => 1, k1 := 1, k2o := 1, ninv := 0, gammaO := 1, hdnInit := 1 }

/-- the values at a hundredth of the reference temperature and unit density -/
noncomputable def kmColdVals : KMVals 1 :=
  { gamW := 1, gamR := 1, g := fun _ => 1, ct := fun _ => 1000 }

theorem kmCold_vals : kmCold.getVals (1 / 100) (fun _ => 1) = .ok (kmColdVals, 1) := by
  unfold KMBalD.getVals
  simp only
  rw [if_neg (by norm_num), if_neg (by norm_num), if_neg (by simp [kmCold]),
    if_neg (by norm_num [kmCold])]
  congr 2
  · simp only [kmColdVals, kmCold, Real.sqrt_one]
    norm_num
  · simp [kmCold]

theorem kmCold_params : KMParams kmCold 0 := by constructor <;> norm_num [kmCold]
theorem kmCold_N : kmN kmCold 0 = 20 := by norm_num [kmN, kmCold]
theorem kmCold_A : kmA kmCold 0 (1 / 100) = 1000 := by norm_num [kmA, kmCold]

theorem kmCold_mag (τ : ℝ) (hτ : τ ≠ 0) : |(kmCold.evalGdot kmColdVals (0 : Fin 12) τ).gdot| =
    kmCold.mag 1 1 1000 (1 / 4) 1 (kmCold.xn 0) (kmCold.tMin 0) (kmCold.tMax 0) |τ| := by
  have ej : kmCold.iVal (0 : Fin 12) = 0 := Subsingleton.elim _ _
  unfold KMBalD.evalGdot
  simp only [ej]
  rw [kmCold.sel_mag (by norm_num [kmColdVals]) (by norm_num [kmCold]), if_neg (fun hc => hτ hc.2),
    abs_copysign]
  have e1 : kmColdVals.ct 0 * kmCold.muRef = 1000 := by norm_num [kmColdVals, kmCold]
  rw [e1]
  simp only [kmColdVals]
  have e2 : (if kmCold.withGA then 1 / kmCold.tauA else 1 / (1 : ℝ)) = 1 / 4 := by simp [kmCold]
  have e3 : (if kmCold.withGA then 1 else kmCold.tauA) = 1 := by simp [kmCold]
  rw [e2, e3]
  exact abs_of_nonneg (kmCold.mag_nonneg (by norm_num) (by norm_num) (by norm_num) (by norm_num)
    (by norm_num [kmCold]) (by norm_num [kmCold]))

theorem kmCold_dg (d t : ℝ) (h : 1 / 10 ^ 90 ≤ 1 - t) : (kmCold.mtsDG 1000 d t).1 = -(1000 * (1 - t)) := by
  have e : spow 1 t = t := by
    unfold spow
    simp only [Real.rpow_one]
    split_ifs with h0
    · rw [abs_of_neg h0]; ring
    · rw [abs_of_nonneg (not_lt.1 h0)]
  rw [mtsDG_spec kmCold kmCold_params.pOne kmCold_params.qOne ⟨Or.inl rfl, Or.inr (by
    show 1 / 10 ^ 90 ≤ 1 - spow 1 t; rw [e]; exact h)⟩]
  show -kmDG 1000 1 1 t = _
  unfold kmDG
  rw [e, if_pos (by have : (0 : ℝ) < 1 / 10 ^ 90 := by norm_num
                    linarith), Real.rpow_one]

/-- **C64, refuted in the cold.** Well below half the reference temperature the rate is dropped to zero
    where the power law term is not small: here the documented rate is a fifth of the reference rate and
    the code gives zero, while 2% more stress takes it past a fifth at once. -/
theorem C64_refuted_cold :
    ∃ (k : KMBalD 1) (T : ℝ) (h : Vec 1) (v : KMVals 1) (sc τ : ℝ),
      KMParams k 0 ∧ 0 < T ∧ k.getVals T h = .ok (v, sc) ∧
      v.gamW = 1 ∧ v.gamR = 1 ∧ (k.evalGdot v (0 : Fin 12) τ).gdot = 0 ∧ 1 / 5 ≤ kmLaw k 0 T (h 0) τ ∧
      1 / 5 ≤ |(k.evalGdot v (0 : Fin 12) (τ * (51 / 50))).gdot| := by
  refine ⟨kmCold, 1 / 100, fun _ => 1, kmColdVals, 1, 44 / 10, kmCold_params, by norm_num, kmCold_vals,
    rfl, rfl, ?_, ?_, ?_⟩
  · rw [← abs_eq_zero, kmCold_mag _ (by norm_num), abs_of_pos (by norm_num)]
    unfold KMBalD.mag
    have : kmCold.thermal 1 1000 (1 / 4) 1 (44 / 10) = none := by
      unfold KMBalD.thermal
      rw [if_pos]
      rw [kmCold_dg _ _ (by norm_num)]
      unfold lnGamRatioMin; norm_num
    rw [this, if_neg, if_neg]
    · rfl
    · unfold KMBalD.tMax
      rw [kmXm, kmCold_N]
      rw [not_lt, show max (0 : ℝ) (44 / 10 - 1) * (1 / 4) = 17 / 20 by norm_num]
      refine le_trans (by norm_num) (Real.one_le_rpow (x := gamRatioOvf) (by
        unfold gamRatioOvf; norm_num) (by norm_num))
    · unfold gamRatioMin
      norm_num [kmCold]
  · unfold kmLaw
    have hath : kmAth kmCold 0 1 = 1 := by norm_num [kmAth, kmStrength, kmCold]
    have hbar : kmBar kmCold 0 1 = 4 := by norm_num [kmBar, kmStrength, kmCold]
    have hw : kmGamW kmCold 1 = 1 := by norm_num [kmGamW, kmCold]
    have hr : kmGamR kmCold 1 = 1 := by norm_num [kmGamR, kmCold]
    have hab : |(44 / 10 : ℝ)| = 44 / 10 := abs_of_pos (by norm_num)
    have htv : kmT kmCold 0 1 (44 / 10) = 17 / 20 := by unfold kmT; rw [hath, hbar, hab]; norm_num
    have htm : kmTm kmCold 0 1 (44 / 10) = -(27 / 20) := by unfold kmTm; rw [hath, hbar, hab]; norm_num
    rw [if_neg (by rw [hath, hab]; norm_num), hath, hw, hr, hab, htv, htm, kmCold_N, kmCold_A]
    set W := kmActivated 1 1000 kmCold.p kmCold.q 20 (17 / 20) (-(27 / 20)) with hW
    have hWl : 3 / 10 ≤ W := by
      have h1 := kmDG_anti (A := 1000) (q := kmCold.q) (by norm_num) kmCold_params.p
        (one_pos.trans_le kmCold_params.q) (show (-(27 / 20) : ℝ) ≤ 17 / 20 by norm_num)
      have h2 := Real.exp_le_exp.2 (neg_le_neg h1)
      have h3 : ((17 / 20 : ℝ)) ^ (20 : ℝ) = (17 / 20) ^ (20 : ℕ) := by
        rw [← Real.rpow_natCast]; norm_num
      rw [hW]; unfold kmActivated
      rw [h3]
      have h4 : (3 / 10 : ℝ) ≤ 10 * 1 * (17 / 20) ^ (20 : ℕ) := by norm_num
      linarith
    set R := kmDrag 1 kmCold.wrD (44 / 10 - 1) with hR
    have hRl : 7 / 10 ≤ R := by
      rw [hR]; unfold kmDrag
      have h1 : Real.exp (-((44 / 10 - 1) / kmCold.wrD)) ≤ 3 / 10 := by
        rw [Real.exp_neg, inv_le_comm₀ (Real.exp_pos _) (by norm_num)]
        have := Real.add_one_le_exp ((44 / 10 - 1) / kmCold.wrD)
        refine le_trans ?_ this
        norm_num [kmCold]
      linarith
    rw [le_div_iff₀ (by linarith)]
    nlinarith
  · rw [kmCold_mag _ (by norm_num), abs_of_pos (by norm_num)]
    have ht : ∃ w, kmCold.thermal 1 1000 (1 / 4) 1 (44 / 10 * (51 / 50)) = some w := by
      unfold KMBalD.thermal
      rw [if_neg, if_neg]
      · exact ⟨_, rfl⟩
      · rw [kmCold_dg _ _ (by norm_num [abs_of_pos])]
        rw [abs_of_pos (by norm_num)]
        unfold lnGamRatioMin; norm_num
      · rw [kmCold_dg _ _ (by rw [abs_of_pos (by norm_num)]; norm_num)]
        rw [abs_of_pos (by norm_num)]
        unfold lnGamRatioMin; norm_num
    obtain ⟨w, hw⟩ := ht
    have hw0 : 0 < w.1 := by
      obtain ⟨w1, d, e⟩ := w
      exact kmCold.thermal_pos (by norm_num) (by norm_num) (by norm_num) (by norm_num [kmCold])
        (by norm_num [kmCold]) hw
    have hz : kmCold.mag 1 1 1000 (1 / 4) 1 (kmCold.xn 0) (kmCold.tMin 0) (kmCold.tMax 0)
        (44 / 10 * (51 / 50)) = harm (addPower 1 (1 / 4) 1 (kmCold.xn 0) (kmCold.tMin 0)
          (44 / 10 * (51 / 50)) w.1) (dragRate 1 ((44 / 10 * (51 / 50) - 1) / kmCold.wrD)) := by
      unfold KMBalD.mag
      rw [hw, if_neg, if_neg]
      · rfl
      · unfold KMBalD.tMax
        rw [kmXm, kmCold_N, not_lt]
        refine le_trans (by norm_num) (Real.one_le_rpow (x := gamRatioOvf) (by
          unfold gamRatioOvf; norm_num) (by norm_num))
      · unfold gamRatioMin
        norm_num [kmCold]
    rw [hz]
    have hP : 3 / 10 ≤ addPower 1 (1 / 4) 1 (kmCold.xn 0) (kmCold.tMin 0) (44 / 10 * (51 / 50)) w.1 := by
      rw [addPower_eq (by norm_num) (by norm_num), kmXnn, kmCold_N, if_pos]
      · have h3 : ((44 / 10 * (51 / 50) - 1 : ℝ) * (1 / 4)) ^ (20 : ℝ) =
            ((44 / 10 * (51 / 50) - 1) * (1 / 4)) ^ (20 : ℕ) := by
          rw [← Real.rpow_natCast]; norm_num
        rw [h3]
        have h4 : (3 / 10 : ℝ) ≤ 1 * 10 * ((44 / 10 * (51 / 50) - 1) * (1 / 4)) ^ (20 : ℕ) := by norm_num
        linarith
      · unfold KMBalD.tMin
        rw [kmXm, kmCold_N]
        have e : gamRatioMin = (1 / 1000 : ℝ) ^ (20 : ℝ) := by
          rw [show (20 : ℝ) = ((20 : ℕ) : ℝ) by norm_num, Real.rpow_natCast]
          unfold gamRatioMin; norm_num
        rw [e, ← Real.rpow_mul (by norm_num)]
        norm_num
    have hD : 7 / 10 ≤ dragRate 1 ((44 / 10 * (51 / 50) - 1) / kmCold.wrD) := by
      refine le_trans ?_ (dragRate_bounds (gamR := 1) (by norm_num) (by norm_num [kmCold])).1
      have h1 : Real.exp (-((44 / 10 * (51 / 50) - 1) / kmCold.wrD)) ≤ 3 / 10 := by
        rw [Real.exp_neg, inv_le_comm₀ (Real.exp_pos _) (by norm_num)]
        have := Real.add_one_le_exp ((44 / 10 * (51 / 50) - 1) / kmCold.wrD)
        refine le_trans ?_ this
        norm_num [kmCold]
      linarith
    have h1 := harm_mono (w := 3 / 10) (r := 7 / 10) (by norm_num) (by norm_num) hP hD
    refine le_trans ?_ h1
    unfold harm; norm_num

/-! ### C65 -/

/-- **C65.** A larger stress magnitude never gives a smaller slip rate, up to a relative `1e-8`. -/
theorem C65_monotone [NeZero nV] {n : ℕ} (k : KMBalD nV) (v : KMVals nV) (i : Fin n)
    (h : KMAdm k v (k.iVal i)) (hn : 0 ≤ k.xnn (k.iVal i)) (τ₁ τ₂ : ℝ) (hτ : |τ₁| ≤ |τ₂|) :
    |(k.evalGdot v i τ₁).gdot| ≤ |(k.evalGdot v i τ₂).gdot| * (1 + 1 / 10 ^ 8) := by
  have hb : 0 < (if k.withGA then 1 / k.tauA else 1 / v.g (k.iVal i)) := by
    have := h.barrier
    split_ifs at this ⊢ <;> exact one_div_pos.2 this
  have hm : ∀ τ, |(k.evalGdot v i τ).gdot| = open Classical in
      if k.withGA = false ∧ τ = 0 then 0 else
      k.mag v.gamW v.gamR (v.ct (k.iVal i) * k.muRef)
      (if k.withGA then 1 / k.tauA else 1 / v.g (k.iVal i))
      (if k.withGA then v.g (k.iVal i) else k.tauA)
      (k.xn (k.iVal i)) (k.tMin (k.iVal i)) (k.tMax (k.iVal i)) |τ| := by
    intro τ
    unfold KMBalD.evalGdot
    simp only
    rw [k.sel_mag h.gamR h.wrD]
    split_ifs with h0 <;> first
      | exact abs_zero
      | (rw [abs_copysign]
         exact abs_of_nonneg (k.mag_nonneg h.gamW h.gamR h.cE (by simpa [*] using hb) h.p h.q))
  rw [hm, hm]
  by_cases h1 : k.withGA = false ∧ τ₁ = 0
  · rw [if_pos h1]
    by_cases h2 : k.withGA = false ∧ τ₂ = 0
    · rw [if_pos h2, zero_mul]
    · rw [if_neg h2]
      exact mul_nonneg (k.mag_nonneg h.gamW h.gamR h.cE hb h.p h.q) (by norm_num)
  · have h2 : ¬ (k.withGA = false ∧ τ₂ = 0) := by
      rintro ⟨hk, rfl⟩
      rw [abs_zero] at hτ
      exact h1 ⟨hk, abs_eq_zero.1 (le_antisymm hτ (abs_nonneg _))⟩
    rw [if_neg h1, if_neg h2]
    exact k.mag_near_mono h.gamW h.gamR h.wrD h.cE hb h.p h.q
      (by unfold KMBalD.xn; linarith) (abs_nonneg _) hτ

example : KMAdm kmExample kmVals (kmExample.iVal (0 : Fin 12)) ∧
    0 ≤ kmExample.xnn (kmExample.iVal (0 : Fin 12)) ∧ |(2 : ℝ)| ≤ |(-3)| := by
  have ej : kmExample.iVal (0 : Fin 12) = 0 := Subsingleton.elim _ _
  rw [ej]
  exact ⟨kmExample_adm 0, by norm_num [KMBalD.xnn, KMBalD.xm, kmExample], by norm_num⟩

/-- no athermal resistance and a very small barrier: glide is limited by drag -/
noncomputable def kmDragEx : KMBalD 1 := { kmExample with tauA := 1 / 10 ^ 40 }
noncomputable def kmDragVals : KMVals 1 := { gamW := 1, gamR := 1, g := fun _ => 0, ct := fun _ => 1 }

/-- **C65, refuted exactly.** At the switch from the linear to the exponential drag law the slip rate
    drops although the stress rises. -/
theorem C65_refuted_exact : ∃ (k : KMBalD 1) (v : KMVals 1) (τ₁ τ₂ : ℝ), KMAdm k v 0 ∧
    0 ≤ k.xnn 0 ∧ 0 < τ₁ ∧ τ₁ < τ₂ ∧
    |(k.evalGdot v (0 : Fin 12) τ₂).gdot| < |(k.evalGdot v (0 : Fin 12) τ₁).gdot| := by
  have hmag : ∀ τ : ℝ, 1 / 10 ^ 9 < τ →
      |(kmDragEx.evalGdot kmDragVals (0 : Fin 12) τ).gdot| = dragRate 1 τ := by
    intro τ hτ
    have h0 : (0 : ℝ) < τ := lt_trans (by norm_num) hτ
    have ej : kmDragEx.iVal (0 : Fin 12) = 0 := Subsingleton.elim _ _
    unfold KMBalD.evalGdot
    simp only [ej]
    rw [kmDragEx.sel_mag (by norm_num [kmDragVals]) (by norm_num [kmDragEx, kmExample]),
      if_neg (fun hc => h0.ne' hc.2), abs_copysign]
    have e2 : (if kmDragEx.withGA then 1 / kmDragEx.tauA else 1 / kmDragVals.g 0) = 10 ^ 40 := by
      norm_num [kmDragEx, kmExample]
    have e3 : (if kmDragEx.withGA then kmDragVals.g 0 else kmDragEx.tauA) = 0 := by
      simp [kmDragEx, kmExample, kmDragVals]
    have e4 : kmDragEx.wrD = 1 := rfl
    have e5 : kmDragVals.gamR = 1 := rfl
    rw [e2, e3, abs_of_pos h0]
    unfold KMBalD.mag
    rw [e4, e5, sub_zero, div_one, max_eq_right h0.le, if_neg, if_pos]
    · exact abs_of_pos (dragRate_pos one_pos h0)
    · have e : kmDragEx.tMax 0 = 10 ^ 30 := by
        unfold KMBalD.tMax
        rw [show kmDragEx.xm 0 = 1 / 2 by norm_num [KMBalD.xm, kmDragEx, kmExample],
          ← Real.sqrt_eq_rpow]
        rw [show gamRatioOvf = (10 ^ 30) ^ 2 by unfold gamRatioOvf; norm_num]
        exact Real.sqrt_sq (by norm_num)
      rw [e]
      have : (1 : ℝ) / 10 ^ 9 * 10 ^ 40 < τ * 10 ^ 40 := mul_lt_mul_of_pos_right hτ (by norm_num)
      refine lt_trans (by norm_num) this
    · unfold gamRatioMin
      rw [not_lt]
      exact le_trans (by norm_num) hτ.le
  refine ⟨kmDragEx, kmDragVals, 1 / 10 ^ 8 * (1 - 1 / 10 ^ 9), 1 / 10 ^ 8, ?_, ?_, by norm_num,
    by norm_num, ?_⟩
  · constructor <;> norm_num [kmDragEx, kmExample, kmDragVals]
  · norm_num [KMBalD.xnn, KMBalD.xm, kmDragEx, kmExample]
  · rw [hmag _ (by norm_num), hmag _ (by norm_num)]
    unfold dragRate
    rw [idpEpsSqrt_eq, if_neg (lt_irrefl _), if_pos (by norm_num)]
    have h1 : (1 - 1 / 10 ^ 8 / 2 : ℝ) ≤ Real.exp (-(1 / 10 ^ 8 / 2)) := by
      have := Real.add_one_le_exp (-(1 / 10 ^ 8 / 2 : ℝ)); linarith
    have h2 : Real.exp (-(1 / 10 ^ 8 : ℝ)) = Real.exp (-(1 / 10 ^ 8 / 2)) ^ 2 := by
      rw [← Real.exp_nat_mul]; congr 1; norm_num
    have h3 : (1 - 1 / 10 ^ 8 / 2 : ℝ) ^ 2 ≤ Real.exp (-(1 / 10 ^ 8 / 2)) ^ 2 :=
      pow_le_pow_left₀ (by norm_num) h1 2
    rw [← h2] at h3
    have h4 : (1 - 1 / 10 ^ 8 / 2 : ℝ) ^ 2 > 1 - 1 / 10 ^ 8 * (1 - 1 / 10 ^ 9) := by norm_num
    linarith

end Ecm.Props
