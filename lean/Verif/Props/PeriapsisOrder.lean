import Verif.Props.Periapsis
import Verif.Lemmas.SphericalUnique

/-!
# C82 — at a given periapsis an eccentric orbit is more stable than a round one

The periapsis `s / (1 + e)` of the marginally stable orbit strictly decreases with the eccentricity, at every spin and
inclination, from the innermost stable spherical orbit to the marginally bound one.
-/

namespace KGP

open Classical Real Filter Topology SepCert Schmidt

section
variable {a : ℝ} (ha : 0 ≤ a) (ha1 : a < 1) {f : ℝ × ℝ × ℝ → ℝ}
  (hf : ∀ rs a e x, (a, e, x) ∈ Spec.SeparatrixDomain → separatrix rs a e x = .ok (f (a, e, x)))
include ha ha1 hf

lemma periapsis_inj {x : ℝ} (hl : -1 ≤ x) (hr : x ≤ 1) :
    Set.InjOn (fun e => f (a, e, x) / (1 + e)) (Set.Ico 0 1) := by
  intro e he e' he' h
  have hx : x ^ 2 ≤ 1 := by nlinarith
  have hA : a ^ 2 < 1 := by nlinarith
  have hb : (a * x) ^ 2 ≤ a ^ 2 := by rw [mul_pow]; exact mul_le_of_le_one_right (sq_nonneg a) hx
  have hs := hf exampleRS a e x ⟨⟨ha, ha1⟩, ⟨he.1, he.2.le⟩, hl, hr⟩
  have hs' := hf exampleRS a e' x ⟨⟨ha, ha1⟩, ⟨he'.1, he'.2.le⟩, hl, hr⟩
  obtain ⟨⟨E, Y, o⟩, hh⟩ := exists_pre ha ha1 he.1 he.2 hl hr hs le_rfl
  obtain ⟨⟨E', Y', o'⟩, -⟩ := exists_pre ha ha1 he'.1 he'.2 hl hr hs' le_rfl
  obtain ⟨q0, hD⟩ := pre_marginal ha ha1 he.1 he.2 hl hr hs o
  obtain ⟨q0', -⟩ := pre_marginal ha ha1 he'.1 he'.2 hl hr hs' o'
  have h : f (a, e, x) / (1 + e) = f (a, e', x) / (1 + e') := h
  generalize f (a, e, x) = p at *
  generalize f (a, e', x) = p' at *
  have hm : 0 < 1 - e := by linarith [he.2]
  have hm' : 0 < 1 - e' := by linarith [he'.2]
  have hp : 0 < 1 + e := by linarith [he.1]
  have hp' : 0 < 1 + e' := by linarith [he'.1]
  have hsn := Real.sqrt_nonneg (1 - a ^ 2)
  have hn : 1 < p / (1 + e) := by
    have : 0 < √(1 - a ^ 2) := Real.sqrt_pos.mpr (by linarith)
    linarith
  have hp0 : 0 < p := (div_pos_iff_of_pos_right hp).mp (by linarith)
  have hp0' : 0 < p' := (div_pos_iff_of_pos_right hp').mp (by linarith)
  have hsr : p / (1 + e) ≤ p / (1 - e) := div_le_div_of_nonneg_left hp0.le hm (by linarith [he.1])
  have hsr' : p' / (1 + e') ≤ p' / (1 - e') := div_le_div_of_nonneg_left hp0'.le hm' (by linarith [he'.1])
  rw [← h] at o' q0' hsr'
  have k := EMono.marginal_unique hb hA.le hn hD o o' hsr hsr' q0 q0'
  rw [div_eq_div_iff hp.ne' hp'.ne'] at h
  rw [div_eq_div_iff hm.ne' hm'.ne'] at k
  have k1 : p = p' := by linarith
  rw [k1] at k
  have := mul_left_cancel₀ hp0'.ne' k
  linarith

/-- The periapsis of the marginally stable orbit decreases with the eccentricity. -/
lemma periapsis_anti (hc : ContinuousOn f Spec.SeparatrixDomain) {x : ℝ} (hl : -1 ≤ x) (hr : x ≤ 1) :
    StrictAntiOn (fun e => f (a, e, x) / (1 + e)) (Set.Icc 0 1) := by
  have hmem : ∀ x ∈ Set.Icc (-1:ℝ) 1, ∀ t ∈ Set.Icc (0:ℝ) 1, (a, t, x) ∈ Spec.SeparatrixDomain :=
    fun x hx t ht => ⟨⟨ha, ha1⟩, ⟨ht.1, ht.2⟩, hx.1, hx.2⟩
  have hcont : ∀ x ∈ Set.Icc (-1:ℝ) 1, ContinuousOn (fun t => f (a, t, x) / (1 + t)) (Set.Icc 0 1) := fun x hx =>
    (hc.comp (f := fun t : ℝ => (a, t, x)) (by fun_prop) (hmem x hx)).div (by fun_prop)
      fun t ht => by have := ht.1; linarith
  have alt : ∀ x ∈ Set.Icc (-1:ℝ) 1, StrictMonoOn (fun t => f (a, t, x) / (1 + t)) (Set.Icc 0 1)
      ∨ StrictAntiOn (fun t => f (a, t, x) / (1 + t)) (Set.Icc 0 1) := by
    intro x hx
    have hi := periapsis_inj ha ha1 hf hx.1 hx.2
    rcases ((hcont x hx).mono Set.Ioo_subset_Icc_self).strictMonoOn_of_injOn_Ioo one_pos
      (hi.mono Set.Ioo_subset_Ico_self) with h | h
    · exact .inl (mono_ends (hcont x hx) fun u v h1 h2 h3 => h ⟨h1, h2.trans h3⟩ ⟨h1.trans h2, h3⟩ h2)
    · right
      have := mono_ends (hcont x hx).neg fun u v h1 h2 h3 => neg_lt_neg (h ⟨h1, h2.trans h3⟩ ⟨h1.trans h2, h3⟩ h2)
      exact fun u hu v hv huv => neg_lt_neg_iff.mp (this hu hv huv)
  have z0 : (0:ℝ) ∈ Set.Icc (0:ℝ) 1 := ⟨le_rfl, zero_le_one⟩
  have z1 : (1:ℝ) ∈ Set.Icc (0:ℝ) 1 := ⟨zero_le_one, le_rfl⟩
  have zh : (1 / 2:ℝ) ∈ Set.Icc (0:ℝ) 1 := ⟨by norm_num, by norm_num⟩
  have o1 : (1:ℝ) ∈ Set.Icc (-1:ℝ) 1 := ⟨by norm_num, le_rfl⟩
  -- prograde equatorial orbits
  have eq : StrictAntiOn (fun t => f (a, t, 1) / (1 + t)) (Set.Icc 0 1) := by
    refine (alt 1 o1).resolve_left fun h => ?_
    have h1 : f (a, 0, 1) / (1 + 0) < f (a, 1, 1) / (1 + 1) := h z0 z1 one_pos
    have h2 := equatorial_periapsis exampleRS ha ha1 le_rfl zero_le_one (by norm_num) (hf exampleRS a 0 1 (hmem 1 o1 0 z0))
    have h3 := Except.ok.inj ((hf exampleRS a 1 1 (hmem 1 o1 1 z1)).symm.trans (C51_marginally_bound exampleRS a ha ha1).1)
    rw [h3] at h1
    unfold Spec.marginallyBound at h1 h2
    rw [mul_one] at h2
    linarith
  refine (alt x ⟨hl, hr⟩).resolve_left fun h => ?_
  -- the sign of the change does not depend on the inclination
  have hg : ContinuousOn (fun y => f (a, 0, y) / (1 + 0) - f (a, 1 / 2, y) / (1 + 1 / 2)) (Set.Icc x 1) := by
    have c : ∀ t ∈ Set.Icc (0:ℝ) 1, ContinuousOn (fun y => f (a, t, y) / (1 + t)) (Set.Icc x 1) := fun t ht =>
      (hc.comp (f := fun y : ℝ => (a, t, y)) (by fun_prop) fun y hy => hmem y ⟨hl.trans hy.1, hy.2⟩ t ht).div_const _
    exact (c 0 z0).sub (c (1 / 2) zh)
  have n1 : f (a, 0, x) / (1 + 0) - f (a, 1 / 2, x) / (1 + 1 / 2) < 0 := sub_neg.mpr (h z0 zh (by norm_num))
  have n2 : 0 < f (a, 0, 1) / (1 + 0) - f (a, 1 / 2, 1) / (1 + 1 / 2) := sub_pos.mpr (eq z0 zh (by norm_num))
  obtain ⟨y, hy, h0⟩ := intermediate_value_Icc hr hg ⟨n1.le, n2.le⟩
  have := periapsis_inj ha ha1 hf (hl.trans hy.1) hy.2 (show (0:ℝ) ∈ Set.Ico (0:ℝ) 1 from ⟨le_rfl, one_pos⟩)
    (show (1 / 2:ℝ) ∈ Set.Ico (0:ℝ) 1 from ⟨by norm_num, by norm_num⟩) (sub_eq_zero.mp h0)
  norm_num at this

end

/-- **C82.** At every spin and inclination the separatrix grows with the eccentricity, but the periapsis `s / (1 + e)` of the
orbit on it shrinks. -/
theorem C82_separatrix (rs : RootScalar) (a e e' x : ℝ) (ha : 0 ≤ a) (ha1 : a < 1) (he : 0 ≤ e) (hee : e < e')
    (he1 : e' ≤ 1) (hl : -1 ≤ x) (hr : x ≤ 1) :
    ∃ s s', separatrix rs a e x = .ok s ∧ separatrix rs a e' x = .ok s' ∧ s < s' ∧ s' / (1 + e') < s / (1 + e) := by
  obtain ⟨⟨s, s', k1, k2, k3⟩, -⟩ := C67_separatrix rs a e e' x ha ha1 he hee he1 hl hr
  refine ⟨s, s', k1, k2, k3, ?_⟩
  obtain ⟨f, hf, hc⟩ := C15_continuous
  have m : e ∈ Set.Icc (0:ℝ) 1 := ⟨he, by linarith⟩
  have m' : e' ∈ Set.Icc (0:ℝ) 1 := ⟨by linarith, he1⟩
  have := periapsis_anti ha ha1 hf hc hl hr m m' hee
  rw [Except.ok.inj (k1.symm.trans (hf rs a e x ⟨⟨ha, ha1⟩, m, hl, hr⟩)),
    Except.ok.inj (k2.symm.trans (hf rs a e' x ⟨⟨ha, ha1⟩, m', hl, hr⟩))]
  exact this

/-- **C82 (objects).** Raising the apoapsis of an accepted orbit and keeping its periapsis gives an accepted orbit. -/
theorem C82_bound (rs : RootScalar) (a p e p' e' x : ℝ) (h : Spec.BoundOrbit rs a p e x) (hee : e ≤ e') (he1 : e' ≤ 1)
    (hp : p' / (1 + e') = p / (1 + e)) : Spec.BoundOrbit rs a p' e' x := by
  obtain ⟨h1, h2, h3, s, hs, hsp⟩ := h
  have hpl : 0 < 1 + e := by linarith [h2.1]
  have hpl' : 0 < 1 + e' := by linarith [h2.1]
  rcases eq_or_lt_of_le hee with rfl | hlt
  · rw [div_left_inj' hpl.ne'] at hp
    exact ⟨h1, h2, h3, s, hs, hp ▸ hsp⟩
  have hX := abs_le.mp (by rw [abs_signedX]; exact h3 : |Spec.signedX a x| ≤ 1)
  obtain ⟨t, s', k1, k2, -, k4⟩ := C82_separatrix rs |a| e e' (Spec.signedX a x) (abs_nonneg a) h1 h2.1 hlt he1 hX.1 hX.2
  obtain rfl : s = t := Except.ok.inj (hs.symm.trans k1)
  refine ⟨h1, ⟨h2.1.trans hee, he1⟩, h3, s', k2, ?_⟩
  have : s' / (1 + e') < p' / (1 + e') := by
    rw [hp]
    exact k4.trans (div_lt_div_of_pos_right hsp hpl)
  exact (div_lt_div_iff_of_pos_right hpl').mp this

/-- **C82 (sharp bound).** At each inclination the periapses of the accepted orbits with `e < 1` are exactly the radii above the
marginally bound spherical orbit, half the parabolic separatrix; the periapses above the innermost stable spherical orbit are
allowed at every eccentricity. -/
theorem C82_periapsis (rs : RootScalar) (a x : ℝ) (ha : |a| < 1) (hx : |x| ≤ 1) :
    ∃ s₀ s₁, separatrix rs |a| 0 (Spec.signedX a x) = .ok s₀ ∧ separatrix rs |a| 1 (Spec.signedX a x) = .ok s₁
      ∧ s₁ / 2 < s₀
      ∧ (∀ r, s₁ / 2 < r ↔ ∃ p e, Spec.BoundOrbit rs a p e x ∧ e < 1 ∧ p / (1 + e) = r)
      ∧ (∀ r, s₀ < r ↔ ∀ e, 0 ≤ e → e ≤ 1 → Spec.BoundOrbit rs a (r * (1 + e)) e x) := by
  have hX := abs_le.mp (by rw [abs_signedX]; exact hx : |Spec.signedX a x| ≤ 1)
  have h0 := abs_nonneg a
  obtain ⟨s₀, s₁, k0, k1, k2, k3⟩ := C82_separatrix rs |a| 0 1 (Spec.signedX a x) h0 ha le_rfl one_pos le_rfl hX.1 hX.2
  rw [add_zero, div_one, one_add_one_eq_two] at k3
  refine ⟨s₀, s₁, k0, k1, k3, fun r => ⟨fun hr => ?_, ?_⟩, fun r => ⟨fun hr e he he1 => ?_, fun h => ?_⟩⟩
  · have hs0 : 0 < s₁ := by linarith
    rcases le_or_gt r s₁ with k | k
    · have hr0 : 0 < r := by linarith
      have e0 : 0 ≤ s₁ / r - 1 := by rw [sub_nonneg, le_div_iff₀ hr0]; linarith
      have e1 : s₁ / r - 1 < 1 := by rw [sub_lt_iff_lt_add, div_lt_iff₀ hr0]; linarith
      obtain ⟨s, s', m1, m2, m3, -⟩ := C82_separatrix rs |a| _ 1 (Spec.signedX a x) h0 ha e0 e1 le_rfl hX.1 hX.2
      obtain rfl := Except.ok.inj (k1.symm.trans m2)
      exact ⟨s₁, s₁ / r - 1, ⟨ha, ⟨e0, e1.le⟩, hx, s, m1, m3⟩, e1, by
        rw [add_sub_cancel, div_div_cancel₀ hs0.ne']⟩
    · exact ⟨r, 0, ⟨ha, ⟨le_rfl, zero_le_one⟩, hx, s₀, k0, by linarith⟩, one_pos, by rw [add_zero, div_one]⟩
  · rintro ⟨p, e, ⟨-, he, -, s, hs, hsp⟩, he1, rfl⟩
    obtain ⟨t, s', m1, m2, -, m4⟩ := C82_separatrix rs |a| e 1 (Spec.signedX a x) h0 ha he.1 he1 le_rfl hX.1 hX.2
    obtain rfl := Except.ok.inj (hs.symm.trans m1)
    obtain rfl := Except.ok.inj (k1.symm.trans m2)
    rw [one_add_one_eq_two] at m4
    exact m4.trans (div_lt_div_of_pos_right hsp (by linarith [he.1]))
  · refine C82_bound rs a r 0 _ e x ⟨ha, ⟨le_rfl, zero_le_one⟩, hx, s₀, k0, hr⟩ he he1 ?_
    rw [mul_div_cancel_right₀ _ (by linarith : 1 + e ≠ 0), add_zero, div_one]
  · obtain ⟨-, -, -, s, hs, hsp⟩ := h 0 le_rfl zero_le_one
    obtain rfl := Except.ok.inj (k0.symm.trans hs)
    rwa [add_zero, mul_one] at hsp

/-- Non-vacuity: a round orbit at `r = 7` around a Schwarzschild hole, and the one with the same periapsis and `e = 1 / 2`. -/
example (rs : RootScalar) : Spec.BoundOrbit rs 0 7 0 1 ∧ Spec.BoundOrbit rs 0 (21 / 2) (1 / 2) 1 := by
  have h : Spec.BoundOrbit rs 0 7 0 1 := by
    refine ⟨by norm_num, ⟨le_rfl, zero_le_one⟩, by norm_num, 6, ?_, by norm_num⟩
    have hX := abs_le.mp (by rw [abs_signedX]; norm_num : |Spec.signedX 0 1| ≤ 1)
    rw [abs_zero, C07_separatrix rs 0 _ le_rfl zero_le_one hX.1 hX.2]
    norm_num
  exact ⟨h, C82_bound rs 0 7 0 _ _ 1 h (by norm_num) (by norm_num) (by norm_num)⟩

end KGP
