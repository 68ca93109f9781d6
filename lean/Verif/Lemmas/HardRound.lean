/- Error bounds for the hardness update in floating-point arithmetic. -/
import Verif.Model.HardRound
import Verif.Lemmas.EosRound

namespace Ecm.Flt
variable {F : Flt}

/-- the inverse of a rounded number -/
theorem inv_round {d : ℝ} (hd : Pw d 100) : F.Er (F.fl (1 / F.fl d)) (1 / d) (2.05 * (1 / d)) (1 / d) := by
  have d0 := hd.pos
  have i0 : 0 < 1 / d := by positivity
  have hw := F.w_pos; have hw1 := F.w_le
  have r := (Er.exact (F := F) (x := d) (m := d) (abs_of_pos d0).le).round (by linarith) (hd.mono (by norm_num))
  have r2 := abs_le.1 r.2
  set f := F.fl d with hf
  have h1 : (0 + 1.01 * d) * F.w ≤ 1.2 / 10 ^ 6 * d := by nlinarith
  have f1 : 0.999 * d ≤ f := by linarith [r2.1]
  have f0 : 0 < f := by nlinarith
  have key : F.Er (1 / f) (1 / d) (1.02 * (1 / d)) (1 / d) := by
    refine ⟨(abs_of_pos i0).le, ?_⟩
    rw [show 1 / f - 1 / d = -(f - d) * (1 / (f * d)) by field_simp; ring, abs_mul, abs_neg, abs_of_pos (by positivity : 0 < 1 / (f * d))]
    have t := mul_le_mul_of_nonneg_right r.2 (by positivity : 0 ≤ 1 / (f * d))
    refine t.trans ?_
    rw [show (0 + 1.01 * d) * F.w * (1 / (f * d)) = 1.01 * F.w / f by field_simp; ring, div_le_iff₀ f0,
      show 1.02 * (1 / d) * F.w * f = (1.02 * F.w) * (f / d) by ring]
    have : 0.999 ≤ f / d := by rw [le_div_iff₀ d0]; exact f1
    nlinarith
  exact (key.round (by linarith) (hd.inv.mono (by norm_num))).mono (by linarith) le_rfl

/-- the residual of the hardness update: error in roundoffs.  `B` bounds the strengths and the change of the strength,
    `A` is the larger of one and the factor of the implicit law. -/
theorem hard_err {k : Voce} {g s hO dt x B : ℝ} (hB : Pw B 30) (hH : Pw k.h0 20) (hd : Pw (s - k.tausi) 20)
    (hdt : Pw dt 20) (hg0 : 0 ≤ g) (hg1 : g ≤ 10 ^ 20) (hs : |s| ≤ B) (hO' : |hO| ≤ B) (hx : |x * max hO 1| ≤ B) :
    F.Er (F.hardNew hO x) (hO + x * max hO 1) (3.03 * B) (2 * B) ∧
    F.Er (F.hardResid k g s hO dt x)
      ((x * max hO 1 - k.h0 * ((s - (hO + x * max hO 1)) * (1 / (s - k.tausi))) * g * dt) * (1 / max hO 1))
      (38 * (max (k.h0 * g * dt / (s - k.tausi)) 1 * B * (1 / max hO 1)))
      (4 * (max (k.h0 * g * dt / (s - k.tausi)) 1 * B) * (1 / max hO 1)) := by
  have b0 := hB.pos; have H0 := hH.pos; have d0 := hd.pos; have t0 := hdt.pos
  set d := s - k.tausi with hdd
  have i0 : 0 < 1 / d := by positivity
  set xs := max hO 1 with hxs
  have xs1 : 1 ≤ xs := le_max_right _ _
  have hXs : Pw xs 30 := by
    refine ⟨le_trans (by norm_num) xs1, max_le ((le_abs_self _).trans (hO'.trans hB.2)) (by norm_num)⟩
  have x0 := hXs.pos
  have two : Pw 2 1 := ⟨by norm_num, by norm_num⟩
  have three : Pw 3 1 := ⟨by norm_num, by norm_num⟩
  have four : Pw 4 1 := ⟨by norm_num, by norm_num⟩
  have e1 : F.Er (F.hardDelta hO x) (x * xs) (1.01 * B) B := prod_err hx (hB.mono (by norm_num))
  have e2 : F.Er (F.hardNew hO x) (hO + x * xs) (3.03 * B) (2 * B) := by
    have := (Er.exact (F := F) hO').add e1 (by linarith) (by linarith) ((hB.add hB).mono (by norm_num))
    exact this.mono (by linarith) (by linarith)
  refine ⟨e2, ?_⟩
  have e3 : F.Er (F.fl (s - F.hardNew hO x)) (s - (hO + x * xs)) (6.06 * B) (3 * B) := by
    have := (Er.exact (F := F) hs).sub e2 (by linarith) (by linarith)
      (by rw [show B + 2 * B = 3 * B by ring]; exact (three.mul hB).mono (by norm_num))
    exact this.mono (by linarith) (by linarith)
  have e4 : F.Er (F.hardTemp2 k s) (1 / d) (2.05 * (1 / d)) (1 / d) := by
    rw [hardTemp2, if_neg (by linarith)]
    exact inv_round (hd.mono (by norm_num))
  have e5 : F.Er (F.fl (F.fl (s - F.hardNew hO x) * F.hardTemp2 k s)) ((s - (hO + x * xs)) * (1 / d))
      (15.3 * (B * (1 / d))) (3 * (B * (1 / d))) := by
    have p : Pw (3 * B * (1 / d)) 190 := ((three.mul hB).mul hd.inv).mono (by norm_num)
    have := e3.mul e4 (by linarith) (by linarith) p
    have q : 0 < B * (1 / d) := by positivity
    refine this.mono ?_ (by linarith)
    have : 6.06 * B * (1 / d) + 1.003 * (3 * B * (2.05 * (1 / d))) + 1.01 * (3 * B * (1 / d))
      = (6.06 + 1.003 * 3 * 2.05 + 1.01 * 3) * (B * (1 / d)) := by ring
    rw [this]; nlinarith
  set Q := B * (1 / d) with hQ
  have q0 : 0 < Q := by positivity
  have hQp : Pw Q 50 := (hB.mul hd.inv).mono (by norm_num)
  have e6 : F.Er (F.fl (k.h0 * F.fl (F.fl (s - F.hardNew hO x) * F.hardTemp2 k s)))
      (k.h0 * ((s - (hO + x * xs)) * (1 / d))) (18.4 * (k.h0 * Q)) (3 * (k.h0 * Q)) := by
    have := e5.scale (s := k.h0) (abs_of_pos H0).le (by linarith)
      ((hH.mul (three.mul hQp)).mono (by norm_num))
    refine this.mono ?_ (by linarith)
    nlinarith [mul_pos H0 q0]
  set R := k.h0 * Q with hR
  have r0 : 0 < R := by positivity
  have hRp : Pw R 70 := (hH.mul hQp).mono (by norm_num)
  set G := max g (d / (k.h0 * dt)) with hG
  have hfl : Pw (d / (k.h0 * dt)) 60 := (hd.div (hH.mul hdt)).mono (by norm_num)
  have hGp : Pw G 60 := ⟨hfl.1.trans (le_max_right _ _), max_le (hg1.trans (by norm_num)) hfl.2⟩
  have g0 := hGp.pos
  have gG : |g| ≤ G := by rw [abs_of_nonneg hg0]; exact le_max_left _ _
  have e7 : F.Er (F.hardRate k g s (F.hardNew hO x)) (k.h0 * ((s - (hO + x * xs)) * (1 / d)) * g)
      (21.5 * (G * R)) (3 * (G * R)) := by
    have := e6.scale (s := g) gG (by linarith) ((hGp.mul (three.mul hRp)).mono (by norm_num))
    rw [hardRate, mul_comm _ g, mul_comm _ g]
    refine this.mono ?_ (by linarith)
    nlinarith [mul_pos g0 r0]
  have gr0 : 0 < G * R := by positivity
  have hGR : Pw (G * R) 130 := (hGp.mul hRp).mono (by norm_num)
  set W := dt * (G * R) with hW
  have w0 : 0 < W := by positivity
  have hWp : Pw W 150 := (hdt.mul hGR).mono (by norm_num)
  have e8 : F.Er (F.fl (F.hardRate k g s (F.hardNew hO x) * dt))
      (k.h0 * ((s - (hO + x * xs)) * (1 / d)) * g * dt) (24.6 * W) (3 * W) := by
    have := e7.scale (s := dt) (abs_of_pos t0).le (by linarith) ((hdt.mul (three.mul hGR)).mono (by norm_num))
    rw [mul_comm _ dt, mul_comm _ dt]
    refine this.mono ?_ (by rw [hW]; linarith)
    rw [hW]; nlinarith [mul_pos t0 gr0]
  have hWA : W = max (k.h0 * g * dt / d) 1 * B := by
    have : max (k.h0 * g * dt / d) 1 = (k.h0 * dt / d) * G := by
      rw [hG, mul_max_of_nonneg _ _ (by positivity)]
      congr 1
      · ring
      · field_simp
    rw [this, hW, hR, hQ]; ring
  have hBW : B ≤ W := by rw [hWA]; nlinarith [le_max_right (k.h0 * g * dt / d) 1]
  rw [← hWA]
  have e9 : F.Er (F.fl (F.hardDelta hO x - F.fl (F.hardRate k g s (F.hardNew hO x) * dt)))
      (x * xs - k.h0 * ((s - (hO + x * xs)) * (1 / d)) * g * dt) (29.7 * W) (4 * W) := by
    have := (e1.mono (e' := 1.01 * W) (m' := W) (by linarith) hBW).sub e8 (by linarith) (by linarith)
      (by rw [show W + 3 * W = 4 * W by ring]; exact (four.mul hWp).mono (by norm_num))
    exact this.mono (by linarith) (by linarith)
  have e10 : F.Er (F.fl (1 / xs)) (1 / xs) (1.01 * (1 / xs)) (1 / xs) := by
    have := (Er.exact (F := F) (x := 1 / xs) (m := 1 / xs) (abs_of_pos hXs.inv.pos).le).round
      (by have := hXs.inv.pos; linarith) (hXs.inv.mono (by norm_num))
    exact this.mono (by linarith) le_rfl
  have xi := hXs.inv.pos
  have := e9.mul e10 (by linarith) (by linarith) (((four.mul hWp).mul hXs.inv).mono (by norm_num))
  rw [hardResid]
  refine this.mono ?_ le_rfl
  have : 29.7 * W * (1 / xs) + 1.003 * (4 * W * (1.01 * (1 / xs))) + 1.01 * (4 * W * (1 / xs))
    = (29.7 + 1.003 * 4 * 1.01 + 1.01 * 4) * (W * (1 / xs)) := by ring
  rw [this]
  nlinarith [mul_pos w0 xi]

end Ecm.Flt
