import Verif.Props.PeriapsisOrder

/-!
# C83 — closed form of the constants of spherical orbits

For `e = 0` the functions of kerrgeopy evaluate the nested determinants of Schmidt.  The result is an elementary expression in
`a`, `p`, `x`, the one of Bardeen, Press & Teukolsky for equatorial orbits, at every inclination.
-/

namespace KGP

open Classical Real SepCert Schmidt

namespace Spec

/-- `√((p² - a² (1 - x²)) / p) - a x`, in place of `√p - a` of equatorial orbits -/
noncomputable def sphericalSigma (a p x : ℝ) : ℝ := √((p ^ 2 - a ^ 2 * (1 - x ^ 2)) / p) - a * x

/-- `(p² + a² (1 - x²)) (Δ - σ²)`, the square of the denominator of the energy -/
noncomputable def sphericalN (a p x : ℝ) : ℝ :=
  (p ^ 2 + a ^ 2 * (1 - x ^ 2)) * (p ^ 2 - 2 * p + a ^ 2 - sphericalSigma a p x ^ 2)

/-- energy of the spherical orbit at `r = p` with inclination `x` -/
noncomputable def sphericalE (a p x : ℝ) : ℝ :=
  (p ^ 2 - 2 * p + a ^ 2 + a * x * sphericalSigma a p x) / √(sphericalN a p x)

/-- its angular momentum divided by `x` -/
noncomputable def sphericalY (a p x : ℝ) : ℝ :=
  (sphericalSigma a p x * (p ^ 2 + a ^ 2) + a * x * (p ^ 2 - 2 * p + a ^ 2)) / √(sphericalN a p x)

/-- its Carter constant -/
noncomputable def sphericalQ (a p x : ℝ) : ℝ :=
  (1 - x ^ 2) * (a ^ 2 * (1 - sphericalE a p x ^ 2) + sphericalY a p x ^ 2)

/-- `- R''(p) / 2` for the radial potential `R`: positive for a stable spherical orbit -/
noncomputable def sphericalStability (a p x : ℝ) : ℝ :=
  3 * p ^ 2 * (1 - sphericalE a p x ^ 2) - 2 * p + a ^ 2 * sphericalQ a p x / p ^ 2

end Spec

/-- The conditions of a spherical orbit solved for its constants. -/
lemma spherical_solved {a p x E Y : ℝ} (ha : a ^ 2 < 1) (hx : x ^ 2 ≤ 1) (hp : 1 < p) (hD : 0 < EMono.D (a ^ 2) p)
    (hY : 0 ≤ Y) (hP : 0 ≤ E * (p ^ 2 + a ^ 2) - a * x * Y) (h0 : EMono.R (a ^ 2) (a * x) E Y p = 0)
    (h1 : EMono.DR (a ^ 2) (a * x) E Y p p = 0) :
    0 < Spec.sphericalN a p x ∧ E = Spec.sphericalE a p x ∧ Y = Spec.sphericalY a p x := by
  have hb : (a * x) ^ 2 ≤ a ^ 2 := by rw [mul_pow]; exact mul_le_of_le_one_right (sq_nonneg a) hx
  obtain ⟨u0, v0, k⟩ := EMono.spherical hb ha.le hp hD hY hP h0 h1
  have hc : 0 < p ^ 2 + a ^ 2 - (a * x) ^ 2 := by nlinarith
  have hK : 0 < p ^ 2 - a ^ 2 + (a * x) ^ 2 := by nlinarith [sq_nonneg (a * x)]
  have hYw : (p ^ 2 + a ^ 2 - (a * x) ^ 2) * Y
      = (Y - a * x * E) * (p ^ 2 + a ^ 2) + a * x * (E * (p ^ 2 + a ^ 2) - a * x * Y) := by ring
  have hEc : (p ^ 2 + a ^ 2 - (a * x) ^ 2) * E = (E * (p ^ 2 + a ^ 2) - a * x * Y) + a * x * (Y - a * x * E) := by ring
  have hdv : p ^ 2 - 2 * p + a ^ 2 = EMono.D (a ^ 2) p := rfl
  have hc' : p ^ 2 + a ^ 2 * (1 - x ^ 2) = p ^ 2 + a ^ 2 - (a * x) ^ 2 := by ring
  have hK' : p ^ 2 - a ^ 2 * (1 - x ^ 2) = p ^ 2 - a ^ 2 + (a * x) ^ 2 := by ring
  unfold EMono.R at h0
  unfold Spec.sphericalE Spec.sphericalY Spec.sphericalN Spec.sphericalSigma
  rw [hdv, hc', hK']
  generalize EMono.D (a ^ 2) p = d at *
  generalize E * (p ^ 2 + a ^ 2) - a * x * Y = u at *
  generalize Y - a * x * E = w at *
  generalize a * x = b at *
  generalize hκ : √((p ^ 2 - a ^ 2 + b ^ 2) / p) = κ
  have hκ0 : 0 ≤ κ := hκ ▸ Real.sqrt_nonneg _
  have hκ2 : p * κ ^ 2 = p ^ 2 - a ^ 2 + b ^ 2 := by
    rw [← hκ, Real.sq_sqrt (by positivity)]
    field_simp
  have hv : d * w + b * u = κ * u := by
    refine (sq_eq_sq₀ v0.le (by positivity)).mp (mul_left_cancel₀ (show p ≠ 0 by linarith) ?_)
    rw [k, ← hκ2]; ring
  generalize hσ : κ - b = σ
  have hw : d * w = σ * u := by rw [← hσ]; linarith
  generalize p ^ 2 + a ^ 2 - b ^ 2 = c at *
  have hN : u ^ 2 * (d - σ ^ 2) = d ^ 2 * c := by
    have : (d * w) ^ 2 = (σ * u) ^ 2 := by rw [hw]
    linear_combination d * h0 + this
  have hN0 : 0 < d - σ ^ 2 := by
    refine (pos_iff_pos_of_mul_pos (a := u ^ 2) ?_).mp (by positivity)
    rw [hN]; positivity
  have hcN : 0 < c * (d - σ ^ 2) := mul_pos hc hN0
  have hq := Real.sq_sqrt hcN.le
  have hq0 := Real.sqrt_pos.mpr hcN
  generalize √(c * (d - σ ^ 2)) = z at *
  have huz : u * z = d * c := by
    refine (sq_eq_sq₀ (by positivity) (by positivity)).mp ?_
    rw [mul_pow, hq]; linear_combination c * hN
  have hdc : d * c ≠ 0 := by positivity
  refine ⟨hcN, ?_, ?_⟩
  · rw [eq_div_iff hq0.ne']
    refine mul_left_cancel₀ hdc ?_
    calc d * c * (E * z) = (c * E) * d * z := by ring
      _ = (d * u + b * (d * w)) * z := by rw [hEc]; ring
      _ = (d + b * σ) * (u * z) := by rw [hw]; ring
      _ = d * c * (d + b * σ) := by rw [huz]; ring
  · rw [eq_div_iff hq0.ne']
    refine mul_left_cancel₀ hdc ?_
    calc d * c * (Y * z) = (c * Y) * d * z := by ring
      _ = ((d * w) * (p ^ 2 + a ^ 2) + b * (d * u)) * z := by rw [hYw]; ring
      _ = (σ * (p ^ 2 + a ^ 2) + b * d) * (u * z) := by rw [hw]; ring
      _ = d * c * (σ * (p ^ 2 + a ^ 2) + b * d) := by rw [huz]; ring

/-- The remaining factor of the radial potential of a spherical orbit. -/
lemma spherical_q {a p x E Y : ℝ} (hE : E = Spec.sphericalE a p x) (hY : Y = Spec.sphericalY a p x) :
    EMono.q (a ^ 2) (a * x) E Y p p p = -Spec.sphericalStability a p x := by
  unfold EMono.q Spec.sphericalStability Spec.sphericalQ
  rw [← hE, ← hY]
  ring

/-- Stable constants of an orbit with `e = 0`. -/
lemma spherical_stable {a p x E L Q : ℝ} (ha : 0 ≤ a) (ha1 : a < 1) (hx : x ^ 2 ≤ 1)
    (h : Spec.StableConstants a p 0 x E L Q) :
    0 < Spec.sphericalN a p x ∧ 0 < Spec.sphericalStability a p x ∧ E = Spec.sphericalE a p x
      ∧ L = x * Spec.sphericalY a p x ∧ Q = Spec.sphericalQ a p x := by
  obtain ⟨Y, o, hL, hQ⟩ := StableConstants.orb ha ha1 le_rfl zero_lt_one hx h
  have hh := h.1
  rw [add_zero, div_one] at hh
  rw [sub_zero, add_zero, div_one] at o
  have hsn : 0 < √(1 - a ^ 2) := Real.sqrt_pos.mpr (by nlinarith)
  obtain ⟨n0, hE, hY⟩ := spherical_solved (by nlinarith : a ^ 2 < 1) hx (by linarith) o.hD o.hY.le o.hPs.le o.root o.root'
  have hq := o.hq p le_rfl
  rw [spherical_q hE hY] at hq
  refine ⟨n0, by linarith, hE, by rw [hL, hY], ?_⟩
  rw [hQ, hE, hY]; rfl

/-- **C83.** For every accepted orbit with `e = 0`, of any inclination, `constants_of_motion` returns the closed form. -/
theorem C83_spherical_constants (rs : RootScalar) (a p x : ℝ) (h : Spec.BoundOrbit rs a p 0 x)
    (hd : 0 < Spec.signedX a x → p ≤ 4 → Spec.DivisorsNonzero a p 0 x) :
    constantsOfMotion rs a p 0 x = .ok (Spec.sphericalE a p x, Spec.signedX a x * Spec.sphericalY a p x,
        Spec.sphericalQ a p x)
      ∧ 0 < Spec.sphericalN a p x ∧ 0 < Spec.sphericalStability a p x := by
  obtain ⟨b, hc, d⟩ := bound_std h
  obtain ⟨E, L, Q, c, hs⟩ := constants_stable b (abs_nonneg a) one_pos fun h1 h2 => d.mpr (hd h1 h2)
  rw [hc] at c
  have hX := abs_le.mp (by rw [abs_signedX]; exact h.2.2.1 : |Spec.signedX a x| ≤ 1)
  obtain ⟨k1, k2, rfl, rfl, rfl⟩ := spherical_stable (abs_nonneg a) h.1 (by nlinarith) hs
  have hax : |a| * Spec.signedX a x = a * x := by
    unfold Spec.signedX
    split_ifs with h
    · rw [abs_of_neg h]; ring
    · rw [abs_of_nonneg (not_lt.mp h)]
  have hx2 : Spec.signedX a x ^ 2 = x ^ 2 := by rw [← sq_abs, abs_signedX, sq_abs]
  have hσ : Spec.sphericalSigma |a| p (Spec.signedX a x) = Spec.sphericalSigma a p x := by
    unfold Spec.sphericalSigma; rw [hax, hx2, sq_abs]
  have hN : Spec.sphericalN |a| p (Spec.signedX a x) = Spec.sphericalN a p x := by
    unfold Spec.sphericalN; rw [hσ, hx2, sq_abs]
  have hE : Spec.sphericalE |a| p (Spec.signedX a x) = Spec.sphericalE a p x := by
    unfold Spec.sphericalE; rw [hσ, hN, hax, sq_abs]
  have hY : Spec.sphericalY |a| p (Spec.signedX a x) = Spec.sphericalY a p x := by
    unfold Spec.sphericalY; rw [hσ, hN, hax, sq_abs]
  have hQ : Spec.sphericalQ |a| p (Spec.signedX a x) = Spec.sphericalQ a p x := by
    unfold Spec.sphericalQ; rw [hE, hY, hx2, sq_abs]
  have hS : Spec.sphericalStability |a| p (Spec.signedX a x) = Spec.sphericalStability a p x := by
    unfold Spec.sphericalStability; rw [hE, hQ, sq_abs]
  rw [hE, hY, hQ] at c
  exact ⟨c, hN ▸ k1, hS ▸ k2⟩

/-- **C83 (innermost stable spherical orbit).** At every inclination `separatrix(a, 0, x)` is the largest zero of the closed
stability function: the function is positive at larger radii, where the closed form of the constants is defined. -/
theorem C83_innermost (rs : RootScalar) (a x : ℝ) (ha : 0 ≤ a) (ha1 : a < 1) (hl : -1 ≤ x) (hr : x ≤ 1) :
    ∃ s, separatrix rs a 0 x = .ok s ∧ 0 < Spec.sphericalN a s x ∧ Spec.sphericalStability a s x = 0
      ∧ (∀ p, s < p → 0 < Spec.sphericalN a p x ∧ 0 < Spec.sphericalStability a p x)
      ∧ ∀ s', s ≤ s' → Spec.sphericalStability a s' x = 0 → s' = s := by
  obtain ⟨f, hf, -⟩ := C15_continuous
  have hm : (a, (0:ℝ), x) ∈ Spec.SeparatrixDomain := ⟨⟨ha, ha1⟩, ⟨le_rfl, zero_le_one⟩, hl, hr⟩
  have hs := hf rs a 0 x hm
  have hs' := hf exampleRS a 0 x hm
  generalize f (a, 0, x) = s at *
  have hx : x ^ 2 ≤ 1 := by nlinarith
  obtain ⟨⟨E, Y, o⟩, hh⟩ := exists_pre ha ha1 le_rfl one_pos hl hr hs' le_rfl
  obtain ⟨q0, hD⟩ := pre_marginal ha ha1 le_rfl one_pos hl hr hs' o
  rw [sub_zero, add_zero, div_one] at o q0
  rw [add_zero, div_one] at hh hD
  have hsn : 0 < √(1 - a ^ 2) := Real.sqrt_pos.mpr (by nlinarith)
  obtain ⟨n0, hE, hY⟩ := spherical_solved (by nlinarith : a ^ 2 < 1) hx (by linarith) hD o.hY o.hPs o.root o.root'
  rw [spherical_q hE hY] at q0
  have key : ∀ p, s < p → 0 < Spec.sphericalN a p x ∧ 0 < Spec.sphericalStability a p x := by
    intro p hp
    obtain ⟨E, L, Q, hc⟩ := stableOrbit_iff.mp ((C16_exact exampleRS a p 0 x ha ha1 le_rfl one_pos hl hr).1.mp
      (((C16_threshold exampleRS a 0 x).2.1 p s hs').mpr hp))
    obtain ⟨k1, k2, -⟩ := spherical_stable ha ha1 hx hc
    exact ⟨k1, k2⟩
  refine ⟨s, hs, n0, by linarith, key, fun s' h1 h2 => ?_⟩
  rcases eq_or_lt_of_le h1 with h | h
  · exact h.symm
  · exact absurd h2 (key s' h).2.ne'

/-- The closed form contains that of Schwarzschild orbits: at `r = 10` the energy is `8 / √70` and `L` is `10 x / √7`. -/
example (rs : RootScalar) : constantsOfMotion rs 0 10 0 (1 / 2)
    = .ok (8 / √70, 1 / 2 * (10 / √7), 3 / 4 * (10 / √7) ^ 2) := by
  have h : Spec.BoundOrbit rs 0 10 0 (1 / 2) := by
    refine ⟨by norm_num, ⟨le_rfl, zero_le_one⟩, by norm_num [abs_le], 6, ?_, by norm_num⟩
    have hX := abs_le.mp (by rw [abs_signedX]; norm_num [abs_le] : |Spec.signedX 0 (1 / 2)| ≤ 1)
    rw [abs_zero, C07_separatrix rs 0 _ le_rfl zero_le_one hX.1 hX.2]
    norm_num
  have hN : √(Spec.sphericalN 0 10 (1 / 2)) = 10 * √70 := by
    unfold Spec.sphericalN Spec.sphericalSigma
    rw [show ((10:ℝ) ^ 2 - 0 ^ 2 * (1 - (1 / 2) ^ 2)) / 10 = 10 by norm_num, zero_mul, sub_zero, Real.sq_sqrt (by norm_num),
      show ((10:ℝ) ^ 2 + 0 ^ 2 * (1 - (1 / 2) ^ 2)) * (10 ^ 2 - 2 * 10 + 0 ^ 2 - 10) = 10 ^ 2 * 70 by norm_num,
      Real.sqrt_mul (by norm_num), Real.sqrt_sq (by norm_num)]
  have h7 : √(70:ℝ) = √10 * √7 := by rw [← Real.sqrt_mul (by norm_num)]; norm_num
  have hE : Spec.sphericalE 0 10 (1 / 2) = 8 / √70 := by
    unfold Spec.sphericalE
    rw [hN]
    have : 0 < √(70:ℝ) := Real.sqrt_pos.mpr (by norm_num)
    field_simp
    norm_num
  have hY : Spec.sphericalY 0 10 (1 / 2) = 10 / √7 := by
    unfold Spec.sphericalY
    rw [hN, h7]
    unfold Spec.sphericalSigma
    rw [show ((10:ℝ) ^ 2 - 0 ^ 2 * (1 - (1 / 2) ^ 2)) / 10 = 10 by norm_num]
    have h1 : 0 < √(7:ℝ) := Real.sqrt_pos.mpr (by norm_num)
    have h2 : 0 < √(10:ℝ) := Real.sqrt_pos.mpr (by norm_num)
    field_simp
    ring
  have hQ : Spec.sphericalQ 0 10 (1 / 2) = 3 / 4 * (10 / √7) ^ 2 := by
    unfold Spec.sphericalQ
    rw [hY]; ring
  have := (C83_spherical_constants rs 0 10 (1 / 2) h fun _ h4 => by norm_num at h4).1
  rw [hE, hY, hQ] at this
  rw [this]
  unfold Spec.signedX
  rw [if_neg (lt_irrefl _)]

end KGP
