import Verif.Lemmas.PlungeSol
import Verif.Lemmas.PiPV

/-!
# The integrals `I_{r±}` of plunging orbits with two complex roots
-/

namespace KGP

open Real Filter Topology

section
variable {m D κ : ℝ}

/-- derivative of the logarithm of equation 48 -/
lemma hasDerivAt_plungeLog (hm : m < 1) (hκ : κ ^ 2 = 1 - D ^ 2 * m) (x : ℝ)
    (hne : D ^ 2 - sin (jacobiAm x m) ^ 2 ≠ 0) {k : ℝ} (hk : k ^ 2 = m) :
    HasDerivAt (fun x => Real.log
      (((D * κ + √(1 - m * sin (jacobiAm x m) ^ 2) * sin (jacobiAm x m)) ^ 2
          + (k * (D ^ 2 - sin (jacobiAm x m) ^ 2)) ^ 2)
        / ((D * κ - √(1 - m * sin (jacobiAm x m) ^ 2) * sin (jacobiAm x m)) ^ 2
          + (k * (D ^ 2 - sin (jacobiAm x m) ^ 2)) ^ 2)))
      (4 * κ * D * cos (jacobiAm x m) / (D ^ 2 - sin (jacobiAm x m) ^ 2)) x := by
  have hdd : ∀ x, √(1 - m * sin (jacobiAm x m) ^ 2) ^ 2 = 1 - m * sin (jacobiAm x m) ^ 2 :=
    fun x => Real.sq_sqrt (one_sub_mul_sin_sq_pos hm _).le
  have hfun : (fun x => Real.log
      (((D * κ + √(1 - m * sin (jacobiAm x m) ^ 2) * sin (jacobiAm x m)) ^ 2
          + (k * (D ^ 2 - sin (jacobiAm x m) ^ 2)) ^ 2)
        / ((D * κ - √(1 - m * sin (jacobiAm x m) ^ 2) * sin (jacobiAm x m)) ^ 2
          + (k * (D ^ 2 - sin (jacobiAm x m) ^ 2)) ^ 2)))
      = fun x => 2 * Real.log ((D * √(1 - m * sin (jacobiAm x m) ^ 2) + κ * sin (jacobiAm x m))
        / (D * √(1 - m * sin (jacobiAm x m) ^ 2) - κ * sin (jacobiAm x m))) := by
    funext x
    have h2 := hdd x
    generalize √(1 - m * sin (jacobiAm x m) ^ 2) = dn at *
    generalize sin (jacobiAm x m) = s at *
    have e1 : (D * κ + dn * s) ^ 2 + (k * (D ^ 2 - s ^ 2)) ^ 2 = (D * dn + κ * s) ^ 2 := by
      linear_combination (D ^ 2 - s ^ 2) * hκ + (s ^ 2 - D ^ 2) * h2 + (D ^ 2 - s ^ 2) ^ 2 * hk
    have e2 : (D * κ - dn * s) ^ 2 + (k * (D ^ 2 - s ^ 2)) ^ 2 = (D * dn - κ * s) ^ 2 := by
      linear_combination (D ^ 2 - s ^ 2) * hκ + (s ^ 2 - D ^ 2) * h2 + (D ^ 2 - s ^ 2) ^ 2 * hk
    rw [e1, e2, ← div_pow, Real.log_pow]
    norm_num
  rw [hfun]
  have hNM : (D * √(1 - m * sin (jacobiAm x m) ^ 2) + κ * sin (jacobiAm x m))
      * (D * √(1 - m * sin (jacobiAm x m) ^ 2) - κ * sin (jacobiAm x m))
      = D ^ 2 - sin (jacobiAm x m) ^ 2 := by
    have h2 := hdd x
    generalize √(1 - m * sin (jacobiAm x m) ^ 2) = dn at *
    linear_combination D ^ 2 * h2 - sin (jacobiAm x m) ^ 2 * hκ
  have hN : D * √(1 - m * sin (jacobiAm x m) ^ 2) + κ * sin (jacobiAm x m) ≠ 0 := by
    intro h; rw [h, zero_mul] at hNM; exact hne hNM.symm
  have hM : D * √(1 - m * sin (jacobiAm x m) ^ 2) - κ * sin (jacobiAm x m) ≠ 0 := by
    intro h; rw [h, mul_zero] at hNM; exact hne hNM.symm
  have dA := (hasDerivAt_dn hm x).const_mul D
  have dB := (hasDerivAt_sn hm x).const_mul κ
  have dlog := (((dA.add dB).div (dA.sub dB) hM).log (div_ne_zero hN hM)).const_mul 2
  refine dlog.congr_deriv ?_
  simp only [Pi.add_apply, Pi.sub_apply, Pi.div_apply]
  have e1 : ∀ a b X Y : ℝ, X ≠ 0 → Y ≠ 0 → (a * Y - X * b) / Y ^ 2 / (X / Y) = (a * Y - b * X) / (X * Y) := by
    intro a b X Y hX hY
    field_simp
  rw [e1 _ _ _ _ hN hM, hNM, ← mul_div_assoc]
  congr 1
  have h2 := hdd x
  generalize √(1 - m * sin (jacobiAm x m) ^ 2) = dn at *
  linear_combination 4 * κ * D * cos (jacobiAm x m) * h2

end

lemma irh_algebra {A B r1 r2 rh E D s c κ2 W : ℝ} (hA : 0 < A) (hB : 0 < B) (h1 : r1 < rh)
    (h2 : rh < r2) (hE : 0 < 1 - E ^ 2)
    (hsc : s ^ 2 + c ^ 2 = 1) (hWpos : 0 < W)
    (hκ : κ2 = (r2 - r1) * W / (A * (rh - r1) + B * (r2 - rh)) ^ 2)
    (hne : s ^ 2 ≠ D ^ 2)
    (hD : D = √(4 * A * B * (r2 - rh) * (rh - r1)) / (A * (rh - r1) + B * (r2 - rh))) :
    (A - B) / (A * (r1 - rh) - B * (r2 - rh)) * 1
      + (r2 - r1) * (A * (r1 - rh) + B * (r2 - rh))
        / (2 * √(A * B * (1 - E ^ 2)) * (rh - r1) * (r2 - rh) * (A * (r1 - rh) - B * (r2 - rh)))
        * (1 / (1 - 1 / D ^ 2 * s ^ 2) * √(A * B * (1 - E ^ 2)))
      - √(r2 - r1) / (4 * √((1 - E ^ 2) * (r2 - rh) * (rh - r1)) * √W)
        * (4 * √κ2 * D * c / (D ^ 2 - s ^ 2) * √(A * B * (1 - E ^ 2)))
      = 1 / ((A * (1 + c) * (r1 - rh) + B * (1 - c) * (r2 - rh)) / (A * (1 + c) + B * (1 - c))) := by
  obtain ⟨x, hx⟩ : ∃ x, x = rh - r1 := ⟨_, rfl⟩
  obtain ⟨y, hy⟩ : ∃ y, y = r2 - rh := ⟨_, rfl⟩
  have hx0 : 0 < x := by linarith
  have hy0 : 0 < y := by linarith
  rw [← hx, ← hy] at hκ hD
  rw [show r2 - r1 = x + y by linarith] at hκ ⊢
  rw [show r1 - rh = -x by linarith, ← hx, ← hy]
  have hS : 0 < A * x + B * y := by positivity
  have hg : 0 < √(A * B) := Real.sqrt_pos.mpr (by positivity)
  have hg2 : √(A * B) ^ 2 = A * B := Real.sq_sqrt (by positivity)
  have he : 0 < √(1 - E ^ 2) := Real.sqrt_pos.mpr hE
  have hp : 0 < √(x * y) := Real.sqrt_pos.mpr (by positivity)
  have hp2 : √(x * y) ^ 2 = x * y := Real.sq_sqrt (by positivity)
  have hd0 : 0 < √(x + y) := Real.sqrt_pos.mpr (by positivity)
  have hd2 : √(x + y) ^ 2 = x + y := Real.sq_sqrt (by positivity)
  have hw0 : 0 < √W := Real.sqrt_pos.mpr hWpos
  have e1 : √(A * B * (1 - E ^ 2)) = √(A * B) * √(1 - E ^ 2) := Real.sqrt_mul (by positivity) _
  have e2 : √((1 - E ^ 2) * y * x) = √(1 - E ^ 2) * √(x * y) := by
    rw [show (1 - E ^ 2) * y * x = (1 - E ^ 2) * (x * y) by ring, Real.sqrt_mul hE.le]
  have e3 : √(4 * A * B * y * x) = 2 * √(A * B) * √(x * y) := by
    rw [show 4 * A * B * y * x = 2 ^ 2 * ((A * B) * (x * y)) by ring, Real.sqrt_mul (by positivity),
      Real.sqrt_sq (by norm_num), Real.sqrt_mul (by positivity)]
    ring
  have e4 : √κ2 = √(x + y) * √W / (A * x + B * y) := by
    rw [hκ, Real.sqrt_div (by positivity), Real.sqrt_sq hS.le, Real.sqrt_mul (by positivity)]
  rw [e3] at hD
  have hD2 : D ^ 2 = 4 * A * B * (x * y) / (A * x + B * y) ^ 2 := by
    rw [hD, div_pow, mul_pow, mul_pow, hg2, hp2]; ring
  have hX : D ^ 2 - s ^ 2 ≠ 0 := sub_ne_zero.mpr (Ne.symm hne)
  have key : √(x + y) / (4 * (√(1 - E ^ 2) * √(x * y)) * √W)
        * (4 * (√(x + y) * √W / (A * x + B * y)) * D * c / (D ^ 2 - s ^ 2) * (√(A * B) * √(1 - E ^ 2)))
      = 2 * A * B * (x + y) * c / ((A * x + B * y) ^ 2 * (D ^ 2 - s ^ 2)) := by
    generalize D ^ 2 - s ^ 2 = X at *
    rw [hD]
    have : ∀ d p w e g S : ℝ, 0 < d → 0 < p → 0 < w → 0 < e → 0 < g → 0 < S →
        d / (4 * (e * p) * w) * (4 * (d * w / S) * (2 * g * p / S) * c / X * (g * e))
          = 2 * g ^ 2 * d ^ 2 * c / (S ^ 2 * X) := by
      intro d p w e g S _ _ _ _ _ _
      field_simp
    rw [this _ _ _ _ _ _ hd0 hp hw0 he hg hS, hg2, hd2]
    ring
  rw [e1, e2, e4, key]
  have hDpos : 0 < D ^ 2 := by rw [hD2]; positivity
  have e5 : 1 / (1 - 1 / D ^ 2 * s ^ 2) = D ^ 2 / (D ^ 2 - s ^ 2) := by
    have h6 : 1 - 1 / D ^ 2 * s ^ 2 = (D ^ 2 - s ^ 2) / D ^ 2 := by
      have := hDpos.ne'
      rw [eq_div_iff this, sub_mul, one_mul, mul_right_comm, one_div, inv_mul_cancel₀ this, one_mul]
    rw [h6, one_div_div]
  rw [e5]
  have e6 : (x + y) * (A * -x + B * y) / (2 * (√(A * B) * √(1 - E ^ 2)) * x * y * (A * -x - B * y))
        * (D ^ 2 / (D ^ 2 - s ^ 2) * (√(A * B) * √(1 - E ^ 2)))
      = -((x + y) * (B * y - A * x)) * (2 * A * B) / ((A * x + B * y) ^ 3 * (D ^ 2 - s ^ 2)) := by
    generalize D ^ 2 - s ^ 2 = X at *
    rw [hD2, show A * -x - B * y = -(A * x + B * y) by ring]
    have hgg : 0 < √(A * B) * √(1 - E ^ 2) := by positivity
    generalize √(A * B) * √(1 - E ^ 2) = G at *
    have hx' := hx0.ne'
    have hy' := hy0.ne'
    generalize A * x + B * y = S at *
    field_simp
    ring
  rw [e6]
  have e7 : (A * x + B * y) ^ 2 * (D ^ 2 - s ^ 2)
      = (B * y - A * x - (A * x + B * y) * c) * (-1) * (-(B * y - A * x + (A * x + B * y) * c)) * (-1) := by
    rw [mul_sub, hD2]
    have : (A * x + B * y) ^ 2 * (4 * A * B * (x * y) / (A * x + B * y) ^ 2) = 4 * A * B * (x * y) := by
      field_simp
    rw [this]
    linear_combination (-(A * x + B * y) ^ 2) * hsc
  have hN : B * y - A * x - (A * x + B * y) * c ≠ 0 := by
    intro h; rw [h] at e7; simp at e7; rcases e7 with h | h
    · exact hS.ne' h
    · exact hX h
  have hM : B * y - A * x + (A * x + B * y) * c ≠ 0 := by
    intro h; rw [h] at e7; simp at e7; rcases e7 with h | h
    · exact hS.ne' h
    · exact hX h
  have e8 : A * (1 + c) * -x + B * (1 - c) * y = B * y - A * x - (A * x + B * y) * c := by ring
  rw [e8, show (A * x + B * y) ^ 3 * (D ^ 2 - s ^ 2)
    = (A * x + B * y) * ((A * x + B * y) ^ 2 * (D ^ 2 - s ^ 2)) by ring, e7]
  rw [show A * -x - B * y = -(A * x + B * y) by ring, one_div_div]
  obtain ⟨S, hSd⟩ : ∃ S, S = A * x + B * y := ⟨_, rfl⟩
  rw [← hSd] at hN hM hS ⊢
  obtain ⟨T, hTd⟩ : ∃ T, T = B * y - A * x := ⟨_, rfl⟩
  rw [← hTd] at hN hM ⊢
  have hN' : T - S * c ≠ 0 := hN
  have hM' : T + S * c ≠ 0 := hM
  rw [show (T - S * c) * (-1) * (-(T + S * c)) * (-1) = -((T - S * c) * (T + S * c)) by ring]
  have hS' := hS.ne'
  field_simp
  rw [hSd, hTd]
  ring

section
variable {r1 r2 u v rh : ℝ} (H : CplxConfig r1 r2 u v) (h1 : r1 < rh) (h2 : rh < r2)
include H h1 h2

lemma CplxConfig.S_pos : 0 < plungeA r2 u v * (rh - r1) + plungeB r1 u v * (r2 - rh) := by
  have := H.A_pos
  have := H.B_pos
  have := sub_pos.mpr h1
  have := sub_pos.mpr h2
  positivity

lemma CplxConfig.D_sq : plungeD (plungeA r2 u v) (plungeB r1 u v) r1 r2 rh ^ 2
    = 4 * plungeA r2 u v * plungeB r1 u v * (r2 - rh) * (rh - r1)
      / (plungeA r2 u v * (rh - r1) + plungeB r1 u v * (r2 - rh)) ^ 2 := by
  have := H.A_pos
  have := H.B_pos
  have := sub_pos.mpr h1
  have := sub_pos.mpr h2
  unfold plungeD
  rw [div_pow, Real.sq_sqrt (by positivity)]

lemma CplxConfig.D_sq_le : plungeD (plungeA r2 u v) (plungeB r1 u v) r1 r2 rh ^ 2 ≤ 1 := by
  rw [H.D_sq h1 h2, div_le_one (pow_pos (H.S_pos h1 h2) 2)]
  nlinarith [sq_nonneg (plungeA r2 u v * (rh - r1) - plungeB r1 u v * (r2 - rh))]

/-- the polynomial under the last root of equation 48 -/
lemma CplxConfig.kappa_sq :
    1 - plungeD (plungeA r2 u v) (plungeB r1 u v) r1 r2 rh ^ 2 * mC r1 r2 u v
      = (r2 - r1) * (plungeA r2 u v ^ 2 * (rh - r1) - (r2 - rh)
          * (r1 ^ 2 - plungeB r1 u v ^ 2 + r2 * rh - r1 * (r2 + rh)))
        / (plungeA r2 u v * (rh - r1) + plungeB r1 u v * (r2 - rh)) ^ 2 := by
  have hS := (H.S_pos h1 h2).ne'
  have hmm := H.mC_mul
  rw [H.D_sq h1 h2]
  generalize plungeA r2 u v = A at *
  generalize plungeB r1 u v = B at *
  generalize mC r1 r2 u v = m at *
  field_simp
  linear_combination (-(r2 - rh) * (rh - r1)) * hmm

/-- **`dI_{r±}/dλ = 1/(r - r±)`** away from `sn² = D²` -/
lemma CplxConfig.hasDerivAt_Irh {E : ℝ} (hE : 0 < 1 - E ^ 2) (q0 lam : ℝ)
    (hne : sin (amC (mC r1 r2 u v) (plungeUpsilonRComplex E r1 r2 u v * lam + q0)) ^ 2
      ≠ plungeD (plungeA r2 u v) (plungeB r1 u v) r1 r2 rh ^ 2) :
    let U := plungeUpsilonRComplex E r1 r2 u v
    HasDerivAt (fun l => plungeIrh E (plungeA r2 u v) (plungeB r1 u v) r1 r2 U rh (U * l + q0))
      (1 / (rC r1 r2 u v (cos (amC (mC r1 r2 u v) (U * lam + q0))) - rh)) lam := by
  intro U
  have hm := H.mC_lt
  have hm0 := H.mC_nonneg
  have hA := H.A_pos
  have hB := H.B_pos
  have hx := sub_pos.mpr h1
  have hy := sub_pos.mpr h2
  have hS := H.S_pos h1 h2
  have hd : 0 < r2 - r1 := by linarith
  have hU : U = π * √(plungeA r2 u v * plungeB r1 u v * (1 - E ^ 2))
    / (2 * ellipk (mC r1 r2 u v)) := H.upsilon_eq E
  have hUpos : 0 < U := H.upsilon_pos hE
  have hDle := H.D_sq_le h1 h2
  have hD2 := H.D_sq h1 h2
  have hDpos : 0 < plungeD (plungeA r2 u v) (plungeB r1 u v) r1 r2 rh := by
    unfold plungeD; positivity
  have hκpos : 0 < 1 - plungeD (plungeA r2 u v) (plungeB r1 u v) r1 r2 rh ^ 2 * mC r1 r2 u v := by
    nlinarith
  have hκ2 := Real.sq_sqrt hκpos.le
  have hW := H.kappa_sq h1 h2
  have hq := hasDerivAt_amC_arg (q0 := q0) (lam := lam) hm hU
  have d1 : HasDerivAt (fun l => (U * l + q0) / U) 1 lam := by
    refine ((((hasDerivAt_id' lam).const_mul U).add_const q0).div_const U).congr_deriv ?_
    field_simp
  have dL := (hasDerivAt_plungeLog hm hκ2 (2 * ellipk (mC r1 r2 u v) * (U * lam + q0) / π)
    (sub_ne_zero.mpr (Ne.symm hne)) H.sq_k).comp lam hq
  have dPi : HasDerivAt (fun l =>
      (r2 - r1) * (plungeA r2 u v * (r1 - rh) + plungeB r1 u v * (r2 - rh))
      / (2 * √(plungeA r2 u v * plungeB r1 u v * (1 - E ^ 2)) * (rh - r1) * (r2 - rh)
        * (plungeA r2 u v * (r1 - rh) - plungeB r1 u v * (r2 - rh)))
      * ellippiincK (jacobiAm (2 * ellipk (mC r1 r2 u v) * (U * l + q0) / π) (mC r1 r2 u v))
        (1 / plungeD (plungeA r2 u v) (plungeB r1 u v) r1 r2 rh ^ 2) (mC r1 r2 u v))
      ((r2 - r1) * (plungeA r2 u v * (r1 - rh) + plungeB r1 u v * (r2 - rh))
      / (2 * √(plungeA r2 u v * plungeB r1 u v * (1 - E ^ 2)) * (rh - r1) * (r2 - rh)
        * (plungeA r2 u v * (r1 - rh) - plungeB r1 u v * (r2 - rh)))
      * (1 / (1 - 1 / plungeD (plungeA r2 u v) (plungeB r1 u v) r1 r2 rh ^ 2
          * sin (amC (mC r1 r2 u v) (U * lam + q0)) ^ 2)
        * √(plungeA r2 u v * plungeB r1 u v * (1 - E ^ 2)))) lam := by
    rcases eq_or_ne (plungeA r2 u v * (r1 - rh) + plungeB r1 u v * (r2 - rh)) 0 with h0 | h0
    · rw [h0]
      simp only [mul_zero, zero_div, zero_mul]
      exact hasDerivAt_const _ _
    · have hn : 1 < 1 / plungeD (plungeA r2 u v) (plungeB r1 u v) r1 r2 rh ^ 2 := by
        rw [lt_div_iff₀ (by positivity), one_mul, hD2, div_lt_one (by positivity)]
        have : 0 < (plungeA r2 u v * (r1 - rh) + plungeB r1 u v * (r2 - rh)) ^ 2 := by positivity
        nlinarith
      have hns : 1 / plungeD (plungeA r2 u v) (plungeB r1 u v) r1 r2 rh ^ 2
          * sin (jacobiAm (2 * ellipk (mC r1 r2 u v) * (U * lam + q0) / π) (mC r1 r2 u v)) ^ 2 ≠ 1 := by
        rw [one_div_mul_eq_div]
        intro h
        rw [div_eq_one_iff_eq (by positivity)] at h
        exact hne h
      refine HasDerivAt.const_mul _ ?_
      have hdn := dn_pos hm (2 * ellipk (mC r1 r2 u v) * (U * lam + q0) / π)
      refine ((HasDerivAt.comp (2 * ellipk (mC r1 r2 u v) * (U * lam + q0) / π) (h := fun x => jacobiAm x (mC r1 r2 u v))
        (hasDerivAt_ellippiincK_gt hn hm0 hm hns) (hasDerivAt_am hm _)).comp lam hq).congr_deriv ?_
      rw [one_div_mul_eq_div] at hns
      change _ = 1 / (1 - 1 / plungeD (plungeA r2 u v) (plungeB r1 u v) r1 r2 rh ^ 2
          * sin (jacobiAm (2 * ellipk (mC r1 r2 u v) * (U * lam + q0) / π) (mC r1 r2 u v)) ^ 2) * _
      rw [one_div_mul_eq_div (plungeD _ _ _ _ _ ^ 2)]
      generalize √(1 - mC r1 r2 u v
        * sin (jacobiAm (2 * ellipk (mC r1 r2 u v) * (U * lam + q0) / π) (mC r1 r2 u v)) ^ 2) = dn at *
      have := sub_ne_zero.mpr (Ne.symm hns)
      generalize 1 - sin (jacobiAm (2 * ellipk (mC r1 r2 u v) * (U * lam + q0) / π) (mC r1 r2 u v)) ^ 2
        / plungeD (plungeA r2 u v) (plungeB r1 u v) r1 r2 rh ^ 2 = X at *
      congr 1
      field_simp
  have := ((d1.const_mul ((plungeA r2 u v - plungeB r1 u v)
      / (plungeA r2 u v * (r1 - rh) - plungeB r1 u v * (r2 - rh)))).add dPi).sub
    (dL.const_mul (√(r2 - r1) / (4 * √((1 - E ^ 2) * (r2 - rh) * (rh - r1))
        * √(plungeA r2 u v ^ 2 * (rh - r1) - (r2 - rh)
          * (r1 ^ 2 - plungeB r1 u v ^ 2 + r2 * rh - r1 * (r2 + rh))))))
  refine HasDerivAt.congr_deriv (HasDerivAt.congr_of_eventuallyEq this (Eventually.of_forall fun l => ?_)) ?_
  · simp only [Pi.add_apply, Pi.sub_apply, Function.comp_apply, plungeIrh, H.sq_k, ellipj]
    generalize Real.log _ = Lg
    generalize ellippiincK _ _ _ = Pk
    ring
  have hcle := Real.cos_le_one (amC (mC r1 r2 u v) (U * lam + q0))
  have hcge := Real.neg_one_le_cos (amC (mC r1 r2 u v) (U * lam + q0))
  rw [H.rC_sub hcge hcle]
  refine irh_algebra hA hB h1 h2 hE ?_ (by
      have := (mul_pos_iff_of_pos_left hd).mp ((div_pos_iff_of_pos_right (pow_pos hS 2)).mp (hW ▸ hκpos))
      linarith) hW ?_ rfl
  · exact Real.sin_sq_add_cos_sq _
  · exact hne

end

end KGP
