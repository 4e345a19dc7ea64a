import Verif.Props.SphericalBounds

/-!
# C85 — the orbits of a given energy

The constants of the marginal orbits, those of the unstable spherical orbits they whirl on, increase with the eccentricity.  So at
each inclination the closed-form energy of spherical orbits falls with the radius up to the innermost stable one and rises from
there on, and the bound orbits of a given energy are one for each eccentricity below a largest one.
-/

namespace KGP

open Classical Real SepCert Schmidt Filter Topology

section
variable {a e x s : ℝ} (ha : 0 ≤ a) (ha1 : a < 1) (he : 0 ≤ e) (he1 : e < 1) (hl : -1 ≤ x) (hr : x ≤ 1)
include ha ha1 he he1 hl hr

/-- the bound orbits of a given eccentricity as a continuous family down to the separatrix -/
lemma orbit_family (hs : separatrix exampleRS a e x = .ok s) :
    ∃ fE fY : ℝ → ℝ, (∀ p, s < p → Spec.StableConstants a p e x (fE p) (x * fY p)
        ((1 - x ^ 2) * (a ^ 2 * (1 - fE p ^ 2) + fY p ^ 2)) ∧ 0 < fY p ∧ 1 - 2 / p ≤ fE p)
      ∧ (∀ p, s < p → ContinuousAt fE p)
      ∧ Tendsto fE (𝓝[>] s) (𝓝 (Spec.sphericalE a (s / (1 + e)) x))
      ∧ Tendsto fY (𝓝[>] s) (𝓝 (Spec.sphericalY a (s / (1 + e)) x)) ∧ 1 < s := by
  have hx : x ^ 2 ≤ 1 := by nlinarith
  obtain ⟨s', h', hv⟩ := C15_separatrix_returns exampleRS a e x ha ha1 he he1.le hl hr
  obtain rfl : s = s' := Except.ok.inj (hs.symm.trans h')
  have ex : ∀ t, s < t → ∃ E Y, EMono.Orb (a ^ 2) (a * x) (t / (1 - e)) (t / (1 + e)) E Y
      ∧ Spec.StableConstants a t e x E (x * Y) ((1 - x ^ 2) * (a ^ 2 * (1 - E ^ 2) + Y ^ 2)) := by
    intro t ht
    obtain ⟨E, L, Q, hc⟩ := stableOrbit_iff.mp ((C16_exact exampleRS a t e x ha ha1 he he1 hl hr).1.mp
      (((C16_threshold exampleRS a e x).2.1 t s hs).mpr ht))
    obtain ⟨Y, o, rfl, rfl⟩ := StableConstants.orb ha ha1 he he1 hx hc
    exact ⟨E, Y, o, hc⟩
  choose! fE fY ho hc using ex
  obtain ⟨tE, tY⟩ := marginal_tendsto ha ha1 he he1 hl hr hs ho
  have hm : 0 < 1 - e := by linarith
  have hpl : 0 < 1 + e := by linarith
  have hsn : 0 < √(1 - a ^ 2) := Real.sqrt_pos.mpr (by nlinarith)
  have hh := (exists_pre ha ha1 he he1 hl hr hs le_rfl).2
  have hs1 : 1 < s := by
    have h1 : 1 < s / (1 + e) := by linarith
    rw [lt_div_iff₀ hpl] at h1
    linarith
  refine ⟨fE, fY, fun p hp => ⟨hc p hp, (ho p hp).hY, ?_⟩, fun t ht => ?_, tE, tY, hs1⟩
  · have o := ho p hp
    have hp0 : 0 < p := by linarith
    have h1 : p ≤ p / (1 - e) := by
      rw [le_div_iff₀ hm]
      nlinarith
    have h2 : 0 < p / (1 + e) := by positivity
    have hE := o.hE
    have hE1 := o.hE1
    have hsum := o.sum
    have hβ : 0 < 1 - fE p ^ 2 := by nlinarith
    have h3 : (1 - fE p ^ 2) * p ≤ 2 := le_trans (mul_le_mul_of_nonneg_left (by linarith) hβ.le) hsum
    have h4 : (1 - fE p) * p ≤ 2 := le_trans (mul_le_mul_of_nonneg_right (by nlinarith) hp0.le) h3
    have : 1 - fE p ≤ 2 / p := by rwa [le_div_iff₀ hp0]
    linarith
  · have hht := (hc t ht).1
    refine (EMono.limit (Y := fY) (Y₀ := fY t) (A := a ^ 2) (b := fun _ => a * x) (b₀ := a * x) (l := 𝓝 t) (r := fun t => t / (1 - e))
      (s := fun t => t / (1 + e)) (r₀ := t / (1 - e)) (s₀ := t / (1 + e)) ?_ tendsto_const_nhds (tendsto_id.div_const _) (tendsto_id.div_const _) (by linarith)
      (ho t ht).hsr ?_).1
    · filter_upwards [lt_mem_nhds ht] with t' h' using ho t' h'
    · intro E' Y' h'
      exact pre_unique ha ha1 he he1 hl hr hv ht hht (ho t ht) h'

/-- every bound orbit of the eccentricity lies above the marginal one -/
lemma above_marginal (hs : separatrix exampleRS a e x = .ok s) {p E L Q : ℝ} (h : Spec.StableConstants a p e x E L Q) :
    Spec.sphericalE a (s / (1 + e)) x < E ∧ (x ≠ 0 → |x| * |Spec.sphericalY a (s / (1 + e)) x| < |L|)
      ∧ (|x| ≠ 1 → Spec.sphericalQ a (s / (1 + e)) x < Q) := by
  have hX : |x| ≤ 1 := abs_le.mpr ⟨hl, hr⟩
  obtain ⟨fE, fY, hc, -, tE, tY, -⟩ := orbit_family ha ha1 he he1 hl hr hs
  have hsp : s < p := ((C16_threshold exampleRS a e x).2.1 p s hs).mp
    ((C16_exact exampleRS a p e x ha ha1 he he1 hl hr).1.mpr (stableOrbit_iff.mpr ⟨_, _, _, h⟩))
  have mono := fun q q' E' L' Q' (hq : s < q) (hqq : q < q') (h' : Spec.StableConstants a q' e x E' L' Q') =>
    (C65_orbits a q q' e x _ _ _ _ _ _ ha ha1 he he1 hX (hc q hq).1 h').2.1 hqq
  have hmid : s < (s + p) / 2 := by linarith
  have hlast := mono _ p E L Q hmid (by linarith) h
  have hcm := (hc _ hmid).1
  have tL := (tY.const_mul x).abs
  have tQ := ((((tE.pow 2).const_sub 1).const_mul (a ^ 2)).add (tY.pow 2)).const_mul (1 - x ^ 2)
  refine ⟨lt_of_le_of_lt (le_of_tendsto tE ?_) hlast.1, fun hx => ?_, fun hx => lt_of_le_of_lt (le_of_tendsto tQ ?_) (hlast.2.2 hx)⟩
  · filter_upwards [Ioo_mem_nhdsGT hmid] with q hq using (mono q _ _ _ _ hq.1 hq.2 hcm).1.le
  · rw [← abs_mul]
    refine lt_of_le_of_lt (le_of_tendsto tL ?_) (hlast.2.1 hx)
    filter_upwards [Ioo_mem_nhdsGT hmid] with q hq using ((mono q _ _ _ _ hq.1 hq.2 hcm).2.1 hx).le
  · filter_upwards [Ioo_mem_nhdsGT hmid] with q hq using ((mono q _ _ _ _ hq.1 hq.2 hcm).2.2 hx).le

lemma marginal_Y_nonneg (hs : separatrix exampleRS a e x = .ok s) : 0 ≤ Spec.sphericalY a (s / (1 + e)) x := by
  obtain ⟨fE, fY, hc, -, -, tY, -⟩ := orbit_family ha ha1 he he1 hl hr hs
  refine ge_of_tendsto tY ?_
  filter_upwards [self_mem_nhdsWithin] with q hq using (hc q hq).2.1.le

/-- what lies below all orbits of the eccentricity lies below the marginal one -/
lemma marginal_ge (hs : separatrix exampleRS a e x = .ok s) {vE vL vQ : ℝ}
    (h : ∀ p E L Q, s < p → Spec.StableConstants a p e x E L Q → vE ≤ E ∧ (x ≠ 0 → vL ≤ |L|) ∧ (|x| ≠ 1 → vQ ≤ Q)) :
    vE ≤ Spec.sphericalE a (s / (1 + e)) x ∧ (x ≠ 0 → vL ≤ |x| * |Spec.sphericalY a (s / (1 + e)) x|)
      ∧ (|x| ≠ 1 → vQ ≤ Spec.sphericalQ a (s / (1 + e)) x) := by
  obtain ⟨fE, fY, hc, -, tE, tY, -⟩ := orbit_family ha ha1 he he1 hl hr hs
  have tL := (tY.const_mul x).abs
  have tQ := ((((tE.pow 2).const_sub 1).const_mul (a ^ 2)).add (tY.pow 2)).const_mul (1 - x ^ 2)
  refine ⟨ge_of_tendsto tE ?_, fun hx => ?_, fun hx => ge_of_tendsto tQ ?_⟩
  · filter_upwards [self_mem_nhdsWithin] with q hq using (h q _ _ _ hq (hc q hq).1).1
  · rw [← abs_mul]
    refine ge_of_tendsto tL ?_
    filter_upwards [self_mem_nhdsWithin] with q hq using (h q _ _ _ hq (hc q hq).1).2.1 hx
  · filter_upwards [self_mem_nhdsWithin] with q hq using (h q _ _ _ hq (hc q hq).1).2.2 hx

end

/-- the marginal constants of two eccentricities -/
lemma marginal_order {a e e' x s s' : ℝ} (ha : 0 ≤ a) (ha1 : a < 1) (he : 0 ≤ e) (hee : e < e') (he1 : e' < 1) (hl : -1 ≤ x)
    (hr : x ≤ 1) (hs : separatrix exampleRS a e x = .ok s) (hs' : separatrix exampleRS a e' x = .ok s') :
    Spec.sphericalE a (s / (1 + e)) x < Spec.sphericalE a (s' / (1 + e')) x ∧ Spec.sphericalE a (s' / (1 + e')) x < 1
      ∧ (x ≠ 0 → Spec.sphericalY a (s / (1 + e)) x < Spec.sphericalY a (s' / (1 + e')) x)
      ∧ (|x| ≠ 1 → Spec.sphericalQ a (s / (1 + e)) x < Spec.sphericalQ a (s' / (1 + e')) x) := by
  have hX : |x| ≤ 1 := abs_le.mpr ⟨hl, hr⟩
  have he1' : e < 1 := by linarith
  have he' : 0 ≤ e' := by linarith
  obtain ⟨t, t', k1, k2, hss⟩ := (C67_separatrix exampleRS a e e' x ha ha1 he hee he1.le hl hr).1
  obtain rfl : s = t := Except.ok.inj (hs.symm.trans k1)
  obtain rfl : s' = t' := Except.ok.inj (hs'.symm.trans k2)
  obtain ⟨fE, fY, hc, -⟩ := orbit_family ha ha1 he he1' hl hr hs
  have h0 := (hc s' hss).1
  obtain ⟨b1, b2, b3⟩ := above_marginal ha ha1 he he1' hl hr hs h0
  obtain ⟨c1, c2, c3⟩ := marginal_ge ha ha1 he' he1 hl hr hs' (vE := fE s') (vL := |x * fY s'|)
    (vQ := (1 - x ^ 2) * (a ^ 2 * (1 - fE s' ^ 2) + fY s' ^ 2)) (by
      intro p E L Q hp h
      obtain ⟨E1, L1, Q1, h1, d1, d2, d3⟩ := C68_orbits a p e e' x E L Q ha ha1 he hee he1 hX h
      obtain ⟨f1, f2, f3⟩ := (C65_orbits a s' p e x _ _ _ _ _ _ ha ha1 he he1' hX h0 h1).2.1 hp
      exact ⟨(f1.trans d1).le, fun hx => ((f2 hx).trans (d2 hx)).le, fun hx => ((f3 hx).trans (d3 hx)).le⟩)
  obtain ⟨fE', fY', hc', -⟩ := orbit_family ha ha1 he' he1 hl hr hs'
  have h2 := (hc' (s' + 1) (by linarith)).1
  refine ⟨lt_of_lt_of_le b1 c1, (above_marginal ha ha1 he' he1 hl hr hs' h2).1.trans h2.2.2.1, fun hx => ?_,
    fun hx => lt_of_lt_of_le (b3 hx) (c3 hx)⟩
  have h3 := lt_of_lt_of_le (b2 hx) (c2 hx)
  rw [abs_of_nonneg (marginal_Y_nonneg ha ha1 he he1' hl hr hs), abs_of_nonneg (marginal_Y_nonneg ha ha1 he' he1 hl hr hs')] at h3
  exact lt_of_mul_lt_mul_left h3 (abs_nonneg x)

/-- **C85 (marginal orbits).** At every inclination the energy, the angular momentum and the Carter constant of the marginal orbit
increase strictly with the eccentricity. -/
theorem C85_marginal (rs : RootScalar) (a e e' x : ℝ) (ha : 0 ≤ a) (ha1 : a < 1) (he : 0 ≤ e) (hee : e < e') (he1 : e' < 1)
    (hl : -1 ≤ x) (hr : x ≤ 1) :
    ∃ s s', separatrix rs a e x = .ok s ∧ separatrix rs a e' x = .ok s'
      ∧ Spec.sphericalE a (s / (1 + e)) x < Spec.sphericalE a (s' / (1 + e')) x ∧ Spec.sphericalE a (s' / (1 + e')) x < 1
      ∧ (x ≠ 0 → Spec.sphericalY a (s / (1 + e)) x < Spec.sphericalY a (s' / (1 + e')) x)
      ∧ (|x| ≠ 1 → Spec.sphericalQ a (s / (1 + e)) x < Spec.sphericalQ a (s' / (1 + e')) x) := by
  obtain ⟨f, hf, -⟩ := C15_continuous
  have m : (a, e, x) ∈ Spec.SeparatrixDomain := ⟨⟨ha, ha1⟩, ⟨he, by linarith⟩, hl, hr⟩
  have m' : (a, e', x) ∈ Spec.SeparatrixDomain := ⟨⟨ha, ha1⟩, ⟨by linarith, he1.le⟩, hl, hr⟩
  exact ⟨_, _, hf rs a e x m, hf rs a e' x m', marginal_order ha ha1 he hee he1 hl hr (hf _ a e x m) (hf _ a e' x m')⟩

/-- a function continuous at the left end that decreases after it decreases from it on -/
lemma anti_from {f : ℝ → ℝ} {m s : ℝ} (hc : ContinuousAt f m) (hm : StrictAntiOn f (Set.Ioc m s)) :
    StrictAntiOn f (Set.Icc m s) := by
  intro p hp q hq hpq
  rcases eq_or_lt_of_le hp.1 with rfl | h
  · have hmid : m < (m + q) / 2 := by linarith
    have hq2 : (m + q) / 2 < q := by linarith
    have m1 : (m + q) / 2 ∈ Set.Ioc m s := ⟨hmid, hq2.le.trans hq.2⟩
    refine lt_of_lt_of_le (hm m1 ⟨hpq, hq.2⟩ hq2) (ge_of_tendsto (hc.tendsto.mono_left (nhdsWithin_le_nhds (s := Set.Ioi m))) ?_)
    filter_upwards [Ioo_mem_nhdsGT hmid] with t ht
    exact (hm ⟨ht.1, ht.2.le.trans m1.2⟩ m1 ht.2).le
  · exact hm ⟨h, hp.2⟩ ⟨h.trans hpq, hq.2⟩ hpq

/-- the radii between the marginally bound and the innermost stable spherical orbit are the periapses of the marginal orbits -/
lemma marginal_radii {a x : ℝ} (ha : 0 ≤ a) (ha1 : a < 1) (hl : -1 ≤ x) (hr : x ≤ 1) {f : ℝ × ℝ × ℝ → ℝ}
    (hc : ContinuousOn f Spec.SeparatrixDomain) {r : ℝ} (h1 : f (a, 1, x) / 2 < r) (h2 : r ≤ f (a, 0, x)) :
    ∃ e, 0 ≤ e ∧ e < 1 ∧ f (a, e, x) / (1 + e) = r := by
  have hcont : ContinuousOn (fun t => f (a, t, x) / (1 + t)) (Set.Icc 0 1) :=
    (hc.comp (f := fun t : ℝ => (a, t, x)) (by fun_prop) fun t ht => ⟨⟨ha, ha1⟩, ⟨ht.1, ht.2⟩, hl, hr⟩).div (by fun_prop)
      fun t ht => by have := ht.1; linarith
  obtain ⟨e, he, h⟩ := intermediate_value_Icc' zero_le_one hcont (show r ∈ Set.Icc _ _ by
    rw [add_zero, div_one, one_add_one_eq_two]
    exact ⟨h1.le, h2⟩)
  refine ⟨e, he.1, lt_of_le_of_ne he.2 ?_, h⟩
  rintro rfl
  simp only [one_add_one_eq_two] at h
  linarith

/-- **C85 (spherical orbits).** At every inclination the closed-form energy of spherical orbits falls strictly from one to its
minimum, at `separatrix(a, 0, x)`, as the radius grows from `separatrix(a, 1, x) / 2`, and rises strictly from there on; so do the
closed-form angular momentum and Carter constant. -/
theorem C85_radius (rs : RootScalar) (a x : ℝ) (ha : 0 ≤ a) (ha1 : a < 1) (hl : -1 ≤ x) (hr : x ≤ 1) :
    ∃ s₀ s₁, separatrix rs a 0 x = .ok s₀ ∧ separatrix rs a 1 x = .ok s₁ ∧ s₁ / 2 < s₀
      ∧ Spec.sphericalE a (s₁ / 2) x = 1
      ∧ StrictAntiOn (fun r => Spec.sphericalE a r x) (Set.Icc (s₁ / 2) s₀)
      ∧ StrictMonoOn (fun r => Spec.sphericalE a r x) (Set.Ici s₀)
      ∧ (x ≠ 0 → StrictAntiOn (fun r => Spec.sphericalY a r x) (Set.Icc (s₁ / 2) s₀)
        ∧ StrictMonoOn (fun r => Spec.sphericalY a r x) (Set.Ici s₀))
      ∧ (|x| ≠ 1 → StrictAntiOn (fun r => Spec.sphericalQ a r x) (Set.Icc (s₁ / 2) s₀)
        ∧ StrictMonoOn (fun r => Spec.sphericalQ a r x) (Set.Ici s₀)) := by
  have hX : |x| ≤ 1 := abs_le.mpr ⟨hl, hr⟩
  obtain ⟨f, hf, hc⟩ := C15_continuous
  have dom : ∀ e, 0 ≤ e → e ≤ 1 → (a, e, x) ∈ Spec.SeparatrixDomain := fun e h h' => ⟨⟨ha, ha1⟩, ⟨h, h'⟩, hl, hr⟩
  have h0 := fun rs => hf rs a 0 x (dom 0 le_rfl zero_le_one)
  obtain ⟨s₁, k1, k2, k3, k4⟩ := C83_marginally_bound rs a x ha ha1 hl hr
  obtain rfl : f (a, 1, x) = s₁ := Except.ok.inj ((hf rs a 1 x (dom 1 zero_le_one le_rfl)).symm.trans k1)
  have hsn := Real.sqrt_nonneg (1 - a ^ 2)
  have hlt : f (a, 1, x) / 2 < f (a, 0, x) := by
    obtain ⟨t, t', j1, j2, -, j3⟩ := C82_separatrix rs a 0 1 x ha ha1 le_rfl one_pos le_rfl hl hr
    rw [add_zero, div_one, one_add_one_eq_two, ← Except.ok.inj ((h0 rs).symm.trans j1), ← Except.ok.inj (k1.symm.trans j2)] at j3
    exact j3
  obtain ⟨c1, c2, c3⟩ := spherical_cont (by linarith) k3
  obtain ⟨i1, i2, -⟩ := spherical_at ha ha1 hl hr (h0 exampleRS)
  obtain ⟨d1, d2, d3⟩ := spherical_cont (by linarith) i2
  have anti : ∀ r ∈ Set.Ioc (f (a, 1, x) / 2) (f (a, 0, x)), ∀ r' ∈ Set.Ioc (f (a, 1, x) / 2) (f (a, 0, x)), r < r' →
      Spec.sphericalE a r' x < Spec.sphericalE a r x ∧ (x ≠ 0 → Spec.sphericalY a r' x < Spec.sphericalY a r x)
        ∧ (|x| ≠ 1 → Spec.sphericalQ a r' x < Spec.sphericalQ a r x) := by
    intro r hr0 r' hr' hrr
    obtain ⟨e, he, he1, rfl⟩ := marginal_radii ha ha1 hl hr hc hr0.1 hr0.2
    obtain ⟨e', he', he1', rfl⟩ := marginal_radii ha ha1 hl hr hc hr'.1 hr'.2
    have hee : e' < e := by
      by_contra h
      push Not at h
      exact absurd hrr (not_lt.mpr ((periapsis_anti ha ha1 hf hc hl hr).antitoneOn ⟨he, he1.le⟩ ⟨he', he1'.le⟩ h))
    obtain ⟨m1, -, m2, m3⟩ := marginal_order ha ha1 he' hee he1 hl hr (hf _ a e' x (dom e' he' he1'.le))
      (hf _ a e x (dom e he he1.le))
    exact ⟨m1, m2, m3⟩
  have mono : ∀ r r', f (a, 0, x) < r → r < r' →
      Spec.sphericalE a r x < Spec.sphericalE a r' x ∧ (x ≠ 0 → Spec.sphericalY a r x < Spec.sphericalY a r' x)
        ∧ (|x| ≠ 1 → Spec.sphericalQ a r x < Spec.sphericalQ a r' x) := by
    intro r r' h1 h2
    have b := spherical_beyond ha ha1 hl hr (h0 exampleRS) h1
    have b' := spherical_beyond ha ha1 hl hr (h0 exampleRS) (h1.trans h2)
    obtain ⟨m1, m2, m3⟩ := (C65_orbits a r r' 0 x _ _ _ _ _ _ ha ha1 le_rfl one_pos hX b.1 b'.1).2.1 h2
    refine ⟨m1, fun hx => ?_, m3⟩
    have := m2 hx
    rw [abs_mul, abs_mul, abs_of_pos b.2.2, abs_of_pos b'.2.2] at this
    exact lt_of_mul_lt_mul_left this (abs_nonneg x)
  have from_end : ∀ {g : ℝ → ℝ}, ContinuousAt g (f (a, 0, x)) → (∀ p p', f (a, 0, x) < p → p < p' → g p < g p') →
      StrictMonoOn g (Set.Ici (f (a, 0, x))) := by
    intro g hg hm p hp q hq hpq
    rcases eq_or_lt_of_le (show f (a, 0, x) ≤ p from hp) with h | h
    · rw [← h] at hpq ⊢
      exact lt_of_interior hg hm hpq
    · exact hm p q h hpq
  refine ⟨_, _, h0 rs, k1, hlt, k4, anti_from c1 fun r h r' h' hh => (anti r h r' h' hh).1,
    from_end d1 fun p p' h h' => (mono p p' h h').1,
    fun hx => ⟨anti_from c2 fun r h r' h' hh => (anti r h r' h' hh).2.1 hx, from_end d2 fun p p' h h' => (mono p p' h h').2.1 hx⟩,
    fun hx => ⟨anti_from c3 fun r h r' h' hh => (anti r h r' h' hh).2.2 hx, from_end d3 fun p p' h h' => (mono p p' h h').2.2 hx⟩⟩

/-- **C85 (orbits of a given energy).** At every inclination, for each energy `v` between that of the innermost stable spherical
orbit and one there is an eccentricity `eₘ`, that of the marginal orbit of energy `v`, such that there is a bound orbit of energy
`v` and eccentricity `e < 1` exactly for `e < eₘ`, and then just one. -/
theorem C85_energy_level (rs : RootScalar) (a x v : ℝ) (ha : 0 ≤ a) (ha1 : a < 1) (hl : -1 ≤ x) (hr : x ≤ 1)
    (hv : ∃ s₀, separatrix rs a 0 x = .ok s₀ ∧ Spec.sphericalE a s₀ x < v) (hv1 : v < 1) :
    ∃ em s, 0 < em ∧ em < 1 ∧ separatrix rs a em x = .ok s ∧ Spec.sphericalE a (s / (1 + em)) x = v
      ∧ ∀ e, 0 ≤ e → e < 1 →
        (e < em ↔ ∃ p L Q, Spec.StableConstants a p e x v L Q)
        ∧ ∀ p L Q p' L' Q', Spec.StableConstants a p e x v L Q → Spec.StableConstants a p' e x v L' Q' →
            p = p' ∧ L = L' ∧ Q = Q' := by
  have hX : |x| ≤ 1 := abs_le.mpr ⟨hl, hr⟩
  obtain ⟨f, hf, hc⟩ := C15_continuous
  have dom : ∀ e, 0 ≤ e → e ≤ 1 → (a, e, x) ∈ Spec.SeparatrixDomain := fun e h h' => ⟨⟨ha, ha1⟩, ⟨h, h'⟩, hl, hr⟩
  obtain ⟨s₀, h0, hv0⟩ := hv
  obtain ⟨t₀, s₁, k0, k1, k2, k3, anti, -⟩ := C85_radius rs a x ha ha1 hl hr
  obtain rfl : s₀ = t₀ := Except.ok.inj (h0.symm.trans k0)
  obtain rfl : f (a, 0, x) = s₀ := Except.ok.inj ((hf rs a 0 x (dom 0 le_rfl zero_le_one)).symm.trans h0)
  obtain rfl : f (a, 1, x) = s₁ := Except.ok.inj ((hf rs a 1 x (dom 1 zero_le_one le_rfl)).symm.trans k1)
  -- the radius of the marginal orbit
  have hcE : ContinuousOn (fun r => Spec.sphericalE a r x) (Set.Icc (f (a, 1, x) / 2) (f (a, 0, x))) := by
    obtain ⟨t₁, j1, j2, j3, -⟩ := C83_marginally_bound rs a x ha ha1 hl hr
    obtain rfl : f (a, 1, x) = t₁ := Except.ok.inj (k1.symm.trans j1)
    have hsn := Real.sqrt_nonneg (1 - a ^ 2)
    intro r hr0
    rcases eq_or_lt_of_le hr0.1 with rfl | h
    · exact (spherical_cont (by linarith) j3).1.continuousWithinAt
    · obtain ⟨e, he, he1, hre⟩ := marginal_radii ha ha1 hl hr hc h hr0.2
      have hs := hf exampleRS a e x (dom e he he1.le)
      obtain ⟨⟨E, Y, o⟩, -⟩ := exists_pre ha ha1 he he1 hl hr hs le_rfl
      have := (marginal_closed ha ha1 he he1 hl hr hs o).2.1
      rw [hre] at this
      exact (spherical_cont (by linarith) this).1.continuousWithinAt
  obtain ⟨r, hr0, hrv⟩ := intermediate_value_Ioo' k2.le hcE (show v ∈ Set.Ioo _ _ by rw [k3]; exact ⟨hv0, hv1⟩)
  obtain ⟨em, hem, hem1, hre⟩ := marginal_radii ha ha1 hl hr hc hr0.1 hr0.2.le
  have hem0 : em ≠ 0 := by
    rintro rfl
    rw [add_zero, div_one] at hre
    exact absurd hre hr0.2.ne'
  refine ⟨em, _, lt_of_le_of_ne hem (Ne.symm hem0), hem1, hf rs a em x (dom em hem hem1.le), by rw [hre]; exact hrv, fun e he he1 => ⟨?_, ?_⟩⟩
  · have hs := hf exampleRS a e x (dom e he he1.le)
    have hsm := hf exampleRS a em x (dom em hem hem1.le)
    constructor
    · intro hlt
      have hm := (marginal_order ha ha1 he hlt hem1 hl hr hs hsm).1
      rw [hre] at hm
      change _ < Spec.sphericalE a r x at hm
      rw [show Spec.sphericalE a r x = v from hrv] at hm
      obtain ⟨fE, fY, hcs, cE, tE, -, hs1⟩ := orbit_family ha ha1 he he1 hl hr hs
      generalize f (a, e, x) = s at *
      -- below `v` near the separatrix, above it far out
      obtain ⟨p, hps, hpv⟩ := ((tE.eventually (gt_mem_nhds hm)).and self_mem_nhdsWithin).exists
      have hpv' : s < p := hpv
      obtain ⟨q, hpq, hqv⟩ : ∃ q, p < q ∧ v < fE q := by
        have hw : 0 < 1 - v := by linarith
        refine ⟨max (p + 1) (4 / (1 - v)), lt_max_of_lt_left (by linarith), ?_⟩
        have hp : p < max (p + 1) (4 / (1 - v)) := lt_max_of_lt_left (by linarith)
        have h3 := (hcs _ (hpv'.trans hp)).2.2
        have h2 : 4 / (1 - v) ≤ max (p + 1) (4 / (1 - v)) := le_max_right _ _
        generalize max (p + 1) (4 / (1 - v)) = q at *
        rw [div_le_iff₀ hw] at h2
        have : 2 / q < 1 - v := by
          rw [div_lt_iff₀ (by linarith)]
          linarith
        linarith
      obtain ⟨t, ht, rfl⟩ := intermediate_value_Ioo hpq.le
        (fun t ht => (cE t (hpv'.trans_le ht.1)).continuousWithinAt) ⟨hps, hqv⟩
      exact ⟨t, _, _, (hcs t (hpv'.trans ht.1)).1⟩
    · rintro ⟨p, L, Q, h⟩
      by_contra hge
      push Not at hge
      have h1 := (above_marginal ha ha1 he he1 hl hr hs h).1
      rcases eq_or_lt_of_le hge with rfl | hlt
      · rw [hre] at h1
        exact absurd hrv h1.ne
      · have hm := (marginal_order ha ha1 hem hlt he1 hl hr hsm hs).1
        rw [hre] at hm
        have : v < v := by
          calc v = Spec.sphericalE a r x := hrv.symm
            _ < _ := hm
            _ < v := h1
        exact lt_irrefl _ this
  · intro p L Q p' L' Q' h h'
    rcases lt_trichotomy p p' with hlt | rfl | hlt
    · exact absurd ((C65_orbits a p p' e x _ _ _ _ _ _ ha ha1 he he1 hX h h').2.1 hlt).1 (lt_irrefl _)
    · obtain ⟨-, h1, h2⟩ := (C65_orbits a p p e x _ _ _ _ _ _ ha ha1 he he1 hX h h').1 rfl
      exact ⟨rfl, h1.symm, h2.symm⟩
    · exact absurd ((C65_orbits a p' p e x _ _ _ _ _ _ ha ha1 he he1 hX h' h).2.1 hlt).1 (lt_irrefl _)

/-- **C85 (bounds).** The constants `constants_of_motion` returns for an accepted orbit exceed those of the marginal orbit of the
same eccentricity and inclination (for a negative spin of the orbit with both signs changed). -/
theorem C85_bounds (rs : RootScalar) (a p e x E L Q : ℝ) (h : Spec.BoundOrbit rs a p e x) (he1 : e < 1)
    (hd : 0 < Spec.signedX a x → p ≤ 4 → Spec.DivisorsNonzero a p e x)
    (hk : constantsOfMotion rs a p e x = .ok (E, L, Q)) :
    ∃ s, separatrix rs |a| e (Spec.signedX a x) = .ok s ∧ s < p
      ∧ Spec.sphericalE |a| (s / (1 + e)) (Spec.signedX a x) < E ∧ E < 1
      ∧ (x ≠ 0 → |x| * Spec.sphericalY |a| (s / (1 + e)) (Spec.signedX a x) < |L|)
      ∧ (|x| ≠ 1 → Spec.sphericalQ |a| (s / (1 + e)) (Spec.signedX a x) < Q) := by
  obtain ⟨b, hc, d⟩ := bound_std h
  obtain ⟨E', L', Q', c, hst⟩ := constants_stable b (abs_nonneg a) he1 fun h1 h2 => d.mpr (hd h1 h2)
  rw [hc, hk] at c
  obtain ⟨rfl, rfl, rfl⟩ : E = E' ∧ L = L' ∧ Q = Q' := by simpa using c
  have hX := abs_le.mp (by rw [abs_signedX]; exact h.2.2.1 : |Spec.signedX a x| ≤ 1)
  obtain ⟨-, -, -, s, hs, hsp⟩ := id h
  have hs' : separatrix exampleRS |a| e (Spec.signedX a x) = .ok s := by
    obtain ⟨f, hf, -⟩ := C15_continuous
    have hm : (|a|, e, Spec.signedX a x) ∈ Spec.SeparatrixDomain := ⟨⟨abs_nonneg a, h.1⟩, ⟨h.2.1.1, he1.le⟩, hX.1, hX.2⟩
    rw [hf exampleRS _ _ _ hm, ← hf rs _ _ _ hm, hs]
  obtain ⟨k1, k3, k4⟩ := above_marginal (abs_nonneg a) h.1 h.2.1.1 he1 hX.1 hX.2 hs' hst
  have hY := marginal_Y_nonneg (abs_nonneg a) h.1 h.2.1.1 he1 hX.1 hX.2 hs'
  refine ⟨s, hs, hsp, k1, hst.2.2.1, fun hx => ?_, fun hx => k4 (by rwa [abs_signedX])⟩
  have := k3 (by rw [← abs_pos, abs_signedX, abs_pos]; exact hx)
  rwa [abs_signedX, abs_of_nonneg hY] at this

/-- **C85 (order along a level).** Of two accepted orbits of the same inclination for which `constants_of_motion` returns the same
energy, the more eccentric one has the smaller semi-latus rectum and comes closer to the hole. -/
theorem C85_level_order (rs : RootScalar) (a p e p' e' x E L Q L' Q' : ℝ) (h : Spec.BoundOrbit rs a p e x)
    (h' : Spec.BoundOrbit rs a p' e' x) (hee : e < e') (he1 : e' < 1)
    (hd : 0 < Spec.signedX a x → p ≤ 4 → Spec.DivisorsNonzero a p e x)
    (hd' : 0 < Spec.signedX a x → p' ≤ 4 → Spec.DivisorsNonzero a p' e' x)
    (hk : constantsOfMotion rs a p e x = .ok (E, L, Q)) (hk' : constantsOfMotion rs a p' e' x = .ok (E, L', Q')) :
    p' < p ∧ p' / (1 + e') < p / (1 + e) := by
  have he := h.2.1.1
  obtain ⟨b, hc, d⟩ := bound_std h
  obtain ⟨E1, L1, Q1, c, hst⟩ := constants_stable b (abs_nonneg a) (by linarith) fun h1 h2 => d.mpr (hd h1 h2)
  rw [hc, hk] at c
  obtain ⟨rfl, rfl, rfl⟩ : E = E1 ∧ L = L1 ∧ Q = Q1 := by simpa using c
  obtain ⟨b', hc', d'⟩ := bound_std h'
  obtain ⟨E2, L2, Q2, c', hst'⟩ := constants_stable b' (abs_nonneg a) he1 fun h1 h2 => d'.mpr (hd' h1 h2)
  rw [hc', hk'] at c'
  obtain ⟨rfl, rfl, rfl⟩ : E = E2 ∧ L' = L2 ∧ Q' = Q2 := by simpa using c'
  have hX : |Spec.signedX a x| ≤ 1 := by rw [abs_signedX]; exact h.2.2.1
  have hpp : p' < p := by
    by_contra hge
    push Not at hge
    obtain ⟨E0, L0, Q0, h0, k1, -⟩ := C68_orbits |a| p' e e' _ E L' Q' (abs_nonneg a) h.1 he hee he1 hX hst'
    rcases eq_or_lt_of_le hge with rfl | hlt
    · have := ((C65_orbits |a| p p e _ _ _ _ _ _ _ (abs_nonneg a) h.1 he (by linarith) hX hst h0).1 rfl).1
      linarith
    · have := ((C65_orbits |a| p p' e _ _ _ _ _ _ _ (abs_nonneg a) h.1 he (by linarith) hX hst h0).2.1 hlt).1
      linarith
  refine ⟨hpp, ?_⟩
  have h1 : 0 < 1 + e := by linarith
  have hp0 : 0 < p := by
    have := Real.sqrt_nonneg (1 - |a| ^ 2)
    exact (div_pos_iff_of_pos_right h1).mp (by linarith [hst.1])
  have h2 : 0 < 1 + e' := by linarith
  rw [div_lt_div_iff₀ h2 h1]
  nlinarith

/-- **C85 (the well).** Let `constants_of_motion` return the energy `E` for an accepted orbit.  At exactly two radii do spherical
orbits of its inclination have this energy according to the closed form, an unstable one inside and a stable one outside of
`separatrix(a, 0, x)`; the periapsis of the orbit lies between them, and reaches the outer one only if the orbit is spherical. -/
theorem C85_well (rs : RootScalar) (a p e x E L Q : ℝ) (h : Spec.BoundOrbit rs a p e x) (he1 : e < 1)
    (hd : 0 < Spec.signedX a x → p ≤ 4 → Spec.DivisorsNonzero a p e x)
    (hk : constantsOfMotion rs a p e x = .ok (E, L, Q)) :
    ∃ s₀ s₁ ru rc, separatrix rs |a| 0 (Spec.signedX a x) = .ok s₀ ∧ separatrix rs |a| 1 (Spec.signedX a x) = .ok s₁
      ∧ s₁ / 2 < ru ∧ ru < s₀ ∧ s₀ < rc
      ∧ (∀ r, s₁ / 2 ≤ r → (Spec.sphericalE |a| r (Spec.signedX a x) = E ↔ r = ru ∨ r = rc))
      ∧ ru < p / (1 + e) ∧ p / (1 + e) ≤ rc ∧ (p / (1 + e) = rc → e = 0) := by
  have he := h.2.1.1
  obtain ⟨b, hc, d⟩ := bound_std h
  obtain ⟨E1, L1, Q1, c, hst⟩ := constants_stable b (abs_nonneg a) he1 fun h1 h2 => d.mpr (hd h1 h2)
  rw [hc, hk] at c
  obtain ⟨rfl, rfl, rfl⟩ : E = E1 ∧ L = L1 ∧ Q = Q1 := by simpa using c
  have hX : |Spec.signedX a x| ≤ 1 := by rw [abs_signedX]; exact h.2.2.1
  obtain ⟨z, hz, hzp, hE0, hE1, -⟩ := C84_bounds rs a p e x E L Q h he1 hd hk
  obtain ⟨-, -, -, t, ht, htp⟩ := id h
  have ha0 := abs_nonneg a
  have ha1 := h.1
  clear hk hc d c b hd
  have hl := (abs_le.mp hX).1
  have hr := (abs_le.mp hX).2
  generalize Spec.signedX a x = X at *
  generalize |a| = A at *
  obtain ⟨s₀, s₁, h0, h1, h10, hs1, anti, mono, -⟩ := C85_radius rs A X ha0 ha1 hl hr
  obtain rfl : z = s₀ := Except.ok.inj (hz.symm.trans h0)
  obtain ⟨em, s, hem0, hem1, hs, hsE, lev⟩ := C85_energy_level rs A X E ha0 ha1 hl hr ⟨z, hz, hE0⟩ hE1
  obtain ⟨rc, L0, Q0, hrc⟩ := (lev 0 le_rfl one_pos).1.mp hem0
  have hlt := (lev e he he1).1.mpr ⟨p, L, Q, hst⟩
  have hz' : separatrix exampleRS A 0 X = .ok z := by
    obtain ⟨f, hf, -⟩ := C15_continuous
    have hm : (A, (0:ℝ), X) ∈ Spec.SeparatrixDomain := ⟨⟨ha0, ha1⟩, ⟨le_rfl, zero_le_one⟩, hl, hr⟩
    rw [hf exampleRS _ _ _ hm, ← hf rs _ _ _ hm, hz]
  have hzc : z < rc := ((C16_threshold exampleRS A 0 X).2.1 rc z hz').mp
    ((C16_exact exampleRS A rc 0 X ha0 ha1 le_rfl one_pos hl hr).1.mpr (stableOrbit_iff.mpr ⟨_, _, _, hrc⟩))
  obtain ⟨-, -, hEc, -⟩ := spherical_stable ha0 ha1 (by nlinarith) hrc
  -- the inner radius
  have hru : s / (1 + em) < z := by
    obtain ⟨u, v, j1, j2, -, j3⟩ := C82_separatrix rs A 0 em X ha0 ha1 le_rfl hem0 hem1.le hl hr
    rw [add_zero, div_one, ← Except.ok.inj (hz.symm.trans j1), ← Except.ok.inj (hs.symm.trans j2)] at j3
    exact j3
  have hru1 : s₁ / 2 < s / (1 + em) := by
    obtain ⟨u, v, j1, j2, -, j3⟩ := C82_separatrix rs A em 1 X ha0 ha1 hem0.le hem1 le_rfl hl hr
    rw [one_add_one_eq_two, ← Except.ok.inj (hs.symm.trans j1), ← Except.ok.inj (h1.symm.trans j2)] at j3
    exact j3
  have hrup : s / (1 + em) < p / (1 + e) := by
    obtain ⟨u, v, j1, j2, -, j3⟩ := C82_separatrix rs A e em X ha0 ha1 he hlt hem1.le hl hr
    rw [← Except.ok.inj (ht.symm.trans j1), ← Except.ok.inj (hs.symm.trans j2)] at j3
    exact j3.trans (div_lt_div_of_pos_right htp (by linarith))
  -- the outer one
  have hout : e ≠ 0 → p / (1 + e) < rc := by
    intro hne
    have hepos : 0 < e := lt_of_le_of_ne he (Ne.symm hne)
    have hp0 : 0 < p := by
      have := Real.sqrt_nonneg (1 - A ^ 2)
      exact (div_pos_iff_of_pos_right (by linarith : 0 < 1 + e)).mp (by linarith [hst.1])
    have hpc : p < rc := by
      by_contra hge
      push Not at hge
      obtain ⟨E2, L2, Q2, h2, k1, -⟩ := C68_orbits A p 0 e _ E L Q ha0 ha1 le_rfl hepos he1 hX hst
      rcases eq_or_lt_of_le hge with rfl | hlt'
      · have := ((C65_orbits A rc rc 0 _ _ _ _ _ _ _ ha0 ha1 le_rfl one_pos hX hrc h2).1 rfl).1
        linarith
      · have := ((C65_orbits A rc p 0 _ _ _ _ _ _ _ ha0 ha1 le_rfl one_pos hX hrc h2).2.1 hlt').1
        linarith
    exact (div_lt_self hp0 (by linarith)).trans hpc
  refine ⟨z, s₁, s / (1 + em), rc, hz, h1, hru1, hru, hzc, fun r hr1 => ⟨fun hrE => ?_, ?_⟩, hrup, ?_, fun heq => ?_⟩
  · rcases le_or_gt r z with hrz | hrz
    · exact .inl (anti.injOn ⟨hr1, hrz⟩ ⟨hru1.le, hru.le⟩ (hrE.trans hsE.symm))
    · exact .inr (mono.injOn (show z ≤ r from hrz.le) (show z ≤ rc from hzc.le) (hrE.trans hEc))
  · rintro (rfl | rfl)
    · exact hsE
    · exact hEc.symm
  · rcases eq_or_ne e 0 with rfl | hne
    · rw [add_zero, div_one]
      exact ((lev 0 le_rfl one_pos).2 _ _ _ _ _ _ hst hrc).1.le
    · exact (hout hne).le
  · by_contra hne
    exact absurd heq (hout hne).ne

/-- Non-vacuity of `C85_bounds` and `C85_well`: the orbit `p = 8`, `e = 1 / 2`, `x = 1 / 2` without spin. -/
example (rs : RootScalar) : ∃ E L Q s₀ ru rc, constantsOfMotion rs 0 8 (1 / 2) (1 / 2) = .ok (E, L, Q) ∧ ru < s₀ ∧ s₀ < rc
    ∧ Spec.sphericalE 0 ru (1 / 2) = E ∧ Spec.sphericalE 0 rc (1 / 2) = E ∧ ru < 16 / 3 ∧ 16 / 3 ≤ rc := by
  have hx : Spec.signedX 0 (1 / 2) = 1 / 2 := by unfold Spec.signedX; rw [if_neg (lt_irrefl 0)]
  have h : Spec.BoundOrbit rs 0 8 (1 / 2) (1 / 2) := by
    refine ⟨by norm_num, by norm_num, by norm_num [abs_le], 7, ?_, by norm_num⟩
    rw [abs_zero, C07_separatrix rs _ _ (by norm_num) (by norm_num) (by rw [hx]; norm_num) (by rw [hx]; norm_num)]
    norm_num
  have hc := constantsOfMotion_of_bound h
  obtain ⟨s₀, s₁, ru, rc, -, -, h1, h2, h3, h4, h5, h6, -⟩ :=
    C85_well rs 0 8 (1 / 2) (1 / 2) _ _ _ h (by norm_num) (fun _ h => by norm_num at h) hc
  rw [hx, abs_zero] at h4
  exact ⟨_, _, _, s₀, ru, rc, hc, h2, h3, (h4 ru h1.le).mpr (.inl rfl), (h4 rc (by linarith)).mpr (.inr rfl),
    by norm_num at h5 ⊢; exact h5, by norm_num at h6 ⊢; exact h6⟩

/-- **C85 (initial data).** An `Orbit` built from any position and velocity and marked stable lies above the marginal orbit of its
eccentricity and inclination; so its eccentricity is below that of the marginal orbit of its energy. -/
theorem C85_initial_data {rs : RootScalar} {a p e x E L Q : ℝ} {pos vel : Vec4} {M mu : Option ℝ} {o : OrbitObj} (ha : 0 < a)
    (ho : mkOrbit rs a pos vel M mu = .ok o)
    (hst : o.stable = true) (hcs : o.consts = (E, L, Q)) (hap : o.apex = (p, e, x))
    (hsin : sin pos.theta ≠ 0) (hE : 0 < E) (hp : 0 < x → p ≤ 4 → Spec.DivisorsNonzero a p e x) :
    (∃ s, separatrix rs a e x = .ok s ∧ s < p ∧ Spec.sphericalE a (s / (1 + e)) x < E
      ∧ |x| * Spec.sphericalY a (s / (1 + e)) x < |L| ∧ (|x| ≠ 1 → Spec.sphericalQ a (s / (1 + e)) x < Q))
    ∧ ∀ em s, 0 ≤ em → em < 1 → separatrix rs a em x = .ok s → Spec.sphericalE a (s / (1 + em)) x = E → e < em := by
  obtain ⟨hb, hx0, he1, -, -, -, hc⟩ := C75_parameters ha ho hst hcs hap hsin hE hp
  have hlt := lt_of_le_of_ne hb.2.1.2 he1
  have hsx : Spec.signedX a x = x := by unfold Spec.signedX; rw [if_neg (not_lt.mpr ha.le)]
  obtain ⟨s, hs, h0, h1, -, h3, h4⟩ := C85_bounds rs a p e x E L Q hb hlt (by rwa [hsx]) hc
  rw [hsx, abs_of_pos ha] at hs h1 h3 h4
  refine ⟨⟨s, hs, h0, h1, h3 hx0, h4⟩, fun em t hem hem1 ht hEt => ?_⟩
  by_contra hge
  push Not at hge
  have hX := abs_le.mp hb.2.2.1
  have ha1 : a < 1 := by have := hb.1; rwa [abs_of_pos ha] at this
  rcases eq_or_lt_of_le hge with rfl | hlt'
  · obtain rfl : s = t := Except.ok.inj (hs.symm.trans ht)
    exact absurd hEt h1.ne
  · obtain ⟨t', s', k1, k2, k3, -⟩ := C85_marginal rs a em e x ha.le ha1 hem hlt' hlt hX.1 hX.2
    obtain rfl : t = t' := Except.ok.inj (ht.symm.trans k1)
    obtain rfl : s = s' := Except.ok.inj (hs.symm.trans k2)
    linarith

/-- Non-vacuity: the orbit of the instance of C75. -/
example (rs : RootScalar) : ∃ vel o s x, mkOrbit rs (12 / 13) ⟨1, 10, π / 2, 3⟩ vel none none = .ok o ∧ o.stable = true
    ∧ separatrix rs (12 / 13) o.apex.2.1 x = .ok s ∧ Spec.sphericalE (12 / 13) (s / (1 + o.apex.2.1)) x < o.consts.1 := by
  obtain ⟨vel, o, x, T, f, ho, hst, hap, -, -, hE, -⟩ := C75_instance rs none
  obtain ⟨⟨s, hs, -, h1, -⟩, -⟩ := C85_initial_data (E := o.consts.1) (L := o.consts.2.1) (Q := o.consts.2.2) (by norm_num) ho hst
    rfl hap (by simp) hE (fun _ h => absurd h (by norm_num))
  exact ⟨vel, o, s, x, ho, hst, by rw [hap]; exact hs, by rw [hap]; exact h1⟩

/-- Without spin, at inclination `1 / 2`: the hypothesis of `C85_energy_level` holds for `v = 19 / 20`. -/
example (rs : RootScalar) : ∃ em s, 0 < em ∧ em < 1 ∧ separatrix rs 0 em (1 / 2) = .ok s
    ∧ ∀ e, 0 ≤ e → e < 1 → (e < em ↔ ∃ p L Q, Spec.StableConstants 0 p e (1 / 2) (19 / 20) L Q) := by
  obtain ⟨em, s, h1, h2, h3, -, h⟩ := C85_energy_level rs 0 (1 / 2) (19 / 20) le_rfl one_pos (by norm_num) (by norm_num)
    ⟨6, by rw [C07_separatrix rs _ _ le_rfl zero_le_one (by norm_num) (by norm_num)]; norm_num, by
      unfold Spec.sphericalE
      have hσ : Spec.sphericalSigma 0 6 (1 / 2) = √6 := by
        unfold Spec.sphericalSigma
        norm_num
      have hN : Spec.sphericalN 0 6 (1 / 2) = 18 ^ 2 * 2 := by
        unfold Spec.sphericalN
        rw [hσ, Real.sq_sqrt (by norm_num)]
        norm_num
      rw [hN, Real.sqrt_mul (by norm_num), Real.sqrt_sq (by norm_num), zero_mul, zero_mul, add_zero,
        div_lt_iff₀ (by positivity)]
      have : (1.41 : ℝ) < √2 := Real.lt_sqrt_of_sq_lt (by norm_num)
      norm_num at this ⊢
      linarith⟩ (by norm_num)
  exact ⟨em, s, h1, h2, h3, fun e he he1 => (h e he he1).1⟩

end KGP
