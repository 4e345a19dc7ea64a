import Verif.Props.Spherical

/-!
# C83 — the limits of the constants at the separatrix

When the semi-latus rectum comes down to the separatrix, the constants of an eccentric orbit tend to those of the unstable
spherical orbit at its periapsis.  The parabolic separatrix is twice the radius where a spherical orbit has energy one.
-/

namespace KGP

open Classical Real SepCert Schmidt Filter Topology

section
variable {a e x s : ℝ} (ha : 0 ≤ a) (ha1 : a < 1) (he : 0 ≤ e) (he1 : e < 1) (hl : -1 ≤ x) (hr : x ≤ 1)
include ha ha1 he he1 hl hr

/-- a marginal orbit is the spherical orbit at its periapsis -/
lemma marginal_closed {E Y : ℝ} (hs : separatrix exampleRS a e x = .ok s)
    (o : EMono.Pre (a ^ 2) (a * x) (s / (1 - e)) (s / (1 + e)) E Y) :
    1 + √(1 - a ^ 2) < s / (1 + e) ∧ 0 < Spec.sphericalN a (s / (1 + e)) x ∧ E = Spec.sphericalE a (s / (1 + e)) x
      ∧ Y = Spec.sphericalY a (s / (1 + e)) x := by
  have hx : x ^ 2 ≤ 1 := by nlinarith
  have hA : a ^ 2 < 1 := by nlinarith
  have hh := (exists_pre ha ha1 he he1 hl hr hs le_rfl).2
  obtain ⟨q0, hD⟩ := pre_marginal ha ha1 he he1 hl hr hs o
  have hm : 0 < 1 - e := by linarith
  have hp : 0 < 1 + e := by linarith
  have hsn : 0 < √(1 - a ^ 2) := Real.sqrt_pos.mpr (by linarith)
  have hs0 : 0 < s := (div_pos_iff_of_pos_right hp).mp (by linarith)
  have hsr : s / (1 + e) ≤ s / (1 - e) := div_le_div_of_nonneg_left hs0.le hm (by linarith)
  refine ⟨hh, ?_⟩
  generalize s / (1 - e) = r at *
  generalize s / (1 + e) = t at *
  have e0 : EMono.R (a ^ 2) (a * x) E Y t = 0 := by
    rw [o.fac (by linarith) (by linarith), sub_self, mul_zero, zero_mul]
  have e1 : EMono.DR (a ^ 2) (a * x) E Y t t = 0 := by
    have ht0 : t ≠ 0 := by linarith
    have hr0 : r ≠ 0 := by linarith
    have e : r * t * (EMono.DR (a ^ 2) (a * x) E Y t t - (t - r) * EMono.q (a ^ 2) (a * x) E Y r t t)
        = (2 * t - r) * (r * EMono.DR (a ^ 2) (a * x) E Y r t - EMono.R (a ^ 2) (a * x) E Y r)
          + t * EMono.R (a ^ 2) (a * x) E Y r := by
      unfold EMono.q EMono.R EMono.DR EMono.D
      field_simp
      ring
    rw [q0, o.root, o.root'] at e
    have : r * t * EMono.DR (a ^ 2) (a * x) E Y t t = 0 := by linarith
    exact (mul_eq_zero.mp this).resolve_left (mul_ne_zero hr0 ht0)
  exact spherical_solved hA hx (by linarith) hD o.hY o.hPs e0 e1

/-- The constants tend to those of the spherical orbit. -/
lemma marginal_tendsto (hs : separatrix exampleRS a e x = .ok s) {fE fY : ℝ → ℝ}
    (ho : ∀ p, s < p → EMono.Orb (a ^ 2) (a * x) (p / (1 - e)) (p / (1 + e)) (fE p) (fY p)) :
    Tendsto fE (𝓝[>] s) (𝓝 (Spec.sphericalE a (s / (1 + e)) x))
      ∧ Tendsto fY (𝓝[>] s) (𝓝 (Spec.sphericalY a (s / (1 + e)) x)) := by
  have hx : x ^ 2 ≤ 1 := by nlinarith
  have hA : a ^ 2 < 1 := by nlinarith
  have hb : (a * x) ^ 2 ≤ a ^ 2 := by rw [mul_pow]; exact mul_le_of_le_one_right (sq_nonneg a) hx
  have hsn : 0 < √(1 - a ^ 2) := Real.sqrt_pos.mpr (by linarith)
  have hh := (exists_pre ha ha1 he he1 hl hr hs le_rfl).2
  have cr : Tendsto (fun t : ℝ => t / (1 - e)) (𝓝[>] s) (𝓝 (s / (1 - e))) :=
    (tendsto_id.div_const _).mono_left nhdsWithin_le_nhds
  have cs : Tendsto (fun t : ℝ => t / (1 + e)) (𝓝[>] s) (𝓝 (s / (1 + e))) :=
    (tendsto_id.div_const _).mono_left nhdsWithin_le_nhds
  have all : ∀ V : Ultrafilter ℝ, (V : Filter ℝ) ≤ 𝓝[>] s →
      Tendsto fE V (𝓝 (Spec.sphericalE a (s / (1 + e)) x)) ∧ Tendsto fY V (𝓝 (Spec.sphericalY a (s / (1 + e)) x)) := by
    intro V hV
    obtain ⟨U, hU, E, Y, h1, h2, hP⟩ := EMono.cluster (l := (V : Filter ℝ)) (A := a ^ 2) (b := a * x) (E := fE) (Y := fY) hb hA.le
      (r := fun t => t / (1 - e)) (s := fun t => t / (1 + e)) (by
        refine hV ?_
        filter_upwards [self_mem_nhdsWithin] with t ht
        exact ⟨(ho t ht).pre, (ho t ht).hsr⟩) (cr.mono_left hV) (cs.mono_left hV) (by linarith)
    obtain rfl := Ultrafilter.eq_of_le hU
    obtain ⟨-, -, k1, k2⟩ := marginal_closed ha ha1 he he1 hl hr hs hP
    exact ⟨k1 ▸ h1, k2 ▸ h2⟩
  exact ⟨(tendsto_iff_ultrafilter _ _ _).mpr fun V hV => (all V hV).1,
    (tendsto_iff_ultrafilter _ _ _).mpr fun V hV => (all V hV).2⟩

end

/-- **C83 (zoom-whirl limit).** As `p` comes down to the separatrix at fixed eccentricity and inclination, the constants returned
tend to the closed form at the periapsis `s / (1 + e)`, those of the unstable spherical orbit on which the orbit whirls. -/
theorem C83_whirl (rs : RootScalar) (a e x : ℝ) (ha : 0 ≤ a) (ha1 : a < 1) (he : 0 ≤ e) (he1 : e < 1) (hl : -1 ≤ x)
    (hr : x ≤ 1) :
    ∃ s, separatrix rs a e x = .ok s ∧ 0 < Spec.sphericalN a (s / (1 + e)) x
      ∧ ∀ ε > 0, ∃ δ > 0, ∀ p E L Q, s < p → p < s + δ → (0 < x → p ≤ 4 → Spec.DivisorsNonzero a p e x) →
          constantsOfMotion rs a p e x = .ok (E, L, Q) →
          |E - Spec.sphericalE a (s / (1 + e)) x| < ε ∧ |L - x * Spec.sphericalY a (s / (1 + e)) x| < ε
            ∧ |Q - Spec.sphericalQ a (s / (1 + e)) x| < ε := by
  obtain ⟨f, hf, -⟩ := C15_continuous
  have hm : (a, e, x) ∈ Spec.SeparatrixDomain := ⟨⟨ha, ha1⟩, ⟨he, he1.le⟩, hl, hr⟩
  have hs := hf rs a e x hm
  have hs' := hf exampleRS a e x hm
  generalize f (a, e, x) = s at *
  have hx : x ^ 2 ≤ 1 := by nlinarith
  obtain ⟨⟨E, Y, o⟩, -⟩ := exists_pre ha ha1 he he1 hl hr hs' le_rfl
  refine ⟨s, hs, (marginal_closed ha ha1 he he1 hl hr hs' o).2.1, fun ε hε => ?_⟩
  have ex : ∀ t, s < t → ∃ E Y, EMono.Orb (a ^ 2) (a * x) (t / (1 - e)) (t / (1 + e)) E Y
      ∧ Spec.StableConstants a t e x E (x * Y) ((1 - x ^ 2) * (a ^ 2 * (1 - E ^ 2) + Y ^ 2)) := by
    intro t ht
    obtain ⟨E, L, Q, hc⟩ := stableOrbit_iff.mp ((C16_exact exampleRS a t e x ha ha1 he he1 hl hr).1.mp
      (((C16_threshold exampleRS a e x).2.1 t s hs').mpr ht))
    obtain ⟨Y, o, rfl, rfl⟩ := StableConstants.orb ha ha1 he he1 hx hc
    exact ⟨E, Y, o, hc⟩
  choose! fE fY ho hc using ex
  obtain ⟨tE, tY⟩ := marginal_tendsto ha ha1 he he1 hl hr hs' ho
  have tL := tY.const_mul x
  have tQ := ((((tE.pow 2).const_sub 1).const_mul (a ^ 2)).add (tY.pow 2)).const_mul (1 - x ^ 2)
  have hev := ((Metric.tendsto_nhds.mp tE ε hε).and (Metric.tendsto_nhds.mp tL ε hε)).and (Metric.tendsto_nhds.mp tQ ε hε)
  rw [eventually_nhdsWithin_iff, Metric.eventually_nhds_iff] at hev
  obtain ⟨δ, hδ, hev⟩ := hev
  refine ⟨δ, hδ, fun p E L Q hp hpδ hd hk => ?_⟩
  have hB : Spec.BoundOrbit rs a p e x := by
    have hsx : Spec.signedX a x = x := by unfold Spec.signedX; rw [if_neg (not_lt.mpr ha)]
    refine ⟨by rwa [abs_of_nonneg ha], ⟨he, he1.le⟩, abs_le.mpr ⟨hl, hr⟩, s, ?_, hp⟩
    rw [hsx, abs_of_nonneg ha]; exact hs
  obtain ⟨E', L', Q', k, hst⟩ := constants_stable hB ha he1 hd
  have hEL := Except.ok.inj (hk.symm.trans k)
  simp only [Prod.mk.injEq] at hEL
  obtain ⟨rfl, rfl, rfl⟩ := hEL
  obtain ⟨u1, u2, u3⟩ := (C65_orbits a p p e x _ _ _ _ _ _ ha ha1 he he1 (abs_le.mpr ⟨hl, hr⟩) (hc p hp) hst).1 rfl
  have hd : dist p s < δ := by
    rw [Real.dist_eq, abs_of_pos (by linarith)]; linarith
  obtain ⟨⟨w1, w2⟩, w3⟩ := hev hd hp
  rw [u1, u2, u3]
  rw [Real.dist_eq] at w1 w2 w3
  exact ⟨w1, w2, w3⟩

/-- **C83 (marginally bound orbit).** At every inclination half of the parabolic separatrix is a radius at which the spherical
orbit has the energy one, outside the horizon. -/
theorem C83_marginally_bound (rs : RootScalar) (a x : ℝ) (ha : 0 ≤ a) (ha1 : a < 1) (hl : -1 ≤ x) (hr : x ≤ 1) :
    ∃ s, separatrix rs a 1 x = .ok s ∧ 1 + √(1 - a ^ 2) < s / 2 ∧ 0 < Spec.sphericalN a (s / 2) x
      ∧ Spec.sphericalE a (s / 2) x = 1 := by
  obtain ⟨f, hf, hc⟩ := C15_continuous
  have hmem : ∀ t ∈ Set.Icc (0:ℝ) 1, (a, t, x) ∈ Spec.SeparatrixDomain := fun t ht => ⟨⟨ha, ha1⟩, ⟨ht.1, ht.2⟩, hl, hr⟩
  have z1 : (1:ℝ) ∈ Set.Icc (0:ℝ) 1 := ⟨zero_le_one, le_rfl⟩
  have hs := hf rs a 1 x (hmem 1 z1)
  have hx : x ^ 2 ≤ 1 := by nlinarith
  have hA : a ^ 2 < 1 := by nlinarith
  -- the periapsis of marginal orbits
  obtain ⟨g, hg⟩ : ∃ g : ℝ → ℝ, g = fun t => f (a, t, x) / (1 + t) := ⟨_, rfl⟩
  have hcont : ContinuousOn g (Set.Icc 0 1) := by
    rw [hg]
    exact (hc.comp (f := fun t : ℝ => (a, t, x)) (by fun_prop) hmem).div (by fun_prop) fun t ht => by
      have := ht.1; linarith
  have hT : Tendsto g (𝓝[<] 1) (𝓝 (g 1)) :=
    (hcont 1 z1).mono_of_mem_nhdsWithin (Icc_mem_nhdsLT_of_mem ⟨by norm_num, le_rfl⟩)
  have h1 : g 1 = f (a, 1, x) / 2 := by rw [hg]; norm_num
  have hout : 1 + √(1 - a ^ 2) < g 1 := by
    have hB : ∀ p, f (a, 1, x) < p → 2 - a + 2 * √(1 - a) < p / 2 := by
      intro p hp
      have hsx : Spec.signedX a x = x := by unfold Spec.signedX; rw [if_neg (not_lt.mpr ha)]
      have := (C80_periapsis rs a p 1 x ⟨by rwa [abs_of_nonneg ha], ⟨zero_le_one, le_rfl⟩, abs_le.mpr ⟨hl, hr⟩, _, by
        rw [hsx, abs_of_nonneg ha]; exact hs, hp⟩).1
      rwa [abs_of_nonneg ha, one_add_one_eq_two] at this
    have h2 : 2 - a + 2 * √(1 - a) ≤ f (a, 1, x) / 2 := by
      by_contra h
      have := hB (2 * (2 - a + 2 * √(1 - a))) (by linarith)
      linarith
    have h3 : √(1 - a ^ 2) ≤ 2 * √(1 - a) := by
      refine Real.sqrt_le_iff.mpr ⟨by positivity, ?_⟩
      rw [mul_pow, Real.sq_sqrt (by linarith)]
      nlinarith
    have h4 := Real.sqrt_nonneg (1 - a)
    rw [h1]; linarith
  have hsn := Real.sqrt_nonneg (1 - a ^ 2)
  have hsq := Real.sq_sqrt (show 0 ≤ 1 - a ^ 2 by linarith)
  have hg0 : 0 < g 1 := by linarith
  -- energies of marginal orbits
  have hE : ∀ t, 0 ≤ t → t < 1 → 0 < Spec.sphericalN a (g t) x ∧ 0 ≤ Spec.sphericalE a (g t) x
      ∧ Spec.sphericalE a (g t) x ≤ 1 ∧ 1 - Spec.sphericalE a (g t) x ^ 2 ≤ 2 * (1 - t) := by
    intro t ht ht1
    have hst := hf exampleRS a t x (hmem t ⟨ht, ht1.le⟩)
    obtain ⟨⟨E, Y, o⟩, hh⟩ := exists_pre ha ha1 ht ht1 hl hr hst le_rfl
    obtain ⟨-, k1, k2, -⟩ := marginal_closed ha ha1 ht ht1 hl hr hst o
    have hgt : g t = f (a, t, x) / (1 + t) := by rw [hg]
    rw [← hgt] at k1 k2 hh
    rw [← k2]
    refine ⟨k1, o.hE, o.hE1, ?_⟩
    have hsum := o.sum
    rw [← hgt] at hsum
    have hf0 : 1 ≤ f (a, t, x) := by
      have : 1 < f (a, t, x) / (1 + t) := by
        rw [← hgt]
        have : 0 < √(1 - a ^ 2) := Real.sqrt_pos.mpr (by linarith)
        linarith
      rw [lt_div_iff₀ (by linarith)] at this
      linarith
    have hm : 0 < 1 - t := by linarith
    have hr1 : 1 / (1 - t) ≤ f (a, t, x) / (1 - t) := div_le_div_of_nonneg_right hf0 hm.le
    have hn : 0 ≤ 1 - E ^ 2 := by have := o.hE; have := o.hE1; nlinarith
    have h5 : (1 - E ^ 2) * (1 / (1 - t)) ≤ 2 := by
      refine le_trans (mul_le_mul_of_nonneg_left ?_ hn) hsum
      linarith
    rwa [mul_one_div, div_le_iff₀ hm] at h5
  have hev : ∀ᶠ t in 𝓝[<] (1:ℝ), 0 ≤ t ∧ t < 1 := by
    filter_upwards [Ioo_mem_nhdsLT (show (0:ℝ) < 1 by norm_num)] with t ht using ⟨ht.1.le, ht.2⟩
  -- continuity of the closed form
  have tσ : Tendsto (fun t => Spec.sphericalSigma a (g t) x) (𝓝[<] 1) (𝓝 (Spec.sphericalSigma a (g 1) x)) := by
    unfold Spec.sphericalSigma
    exact ((((hT.pow 2).sub_const _).div hT hg0.ne').sqrt).sub_const _
  have tN : Tendsto (fun t => Spec.sphericalN a (g t) x) (𝓝[<] 1) (𝓝 (Spec.sphericalN a (g 1) x)) := by
    unfold Spec.sphericalN
    exact ((hT.pow 2).add_const _).mul ((((hT.pow 2).sub (hT.const_mul 2)).add_const _).sub (tσ.pow 2))
  have tM : Tendsto (fun t => g t ^ 2 - 2 * g t + a ^ 2 + a * x * Spec.sphericalSigma a (g t) x) (𝓝[<] 1)
      (𝓝 (g 1 ^ 2 - 2 * g 1 + a ^ 2 + a * x * Spec.sphericalSigma a (g 1) x)) :=
    (((hT.pow 2).sub (hT.const_mul 2)).add_const _).add (tσ.const_mul _)
  have tE : Tendsto (fun t => Spec.sphericalE a (g t) x ^ 2) (𝓝[<] 1) (𝓝 1) := by
    have tl : Tendsto (fun t : ℝ => 1 - 2 * (1 - t)) (𝓝[<] 1) (𝓝 1) := by
      have : Tendsto (fun t : ℝ => 1 - 2 * (1 - t)) (𝓝 1) (𝓝 (1 - 2 * (1 - 1))) := Continuous.tendsto (by fun_prop) 1
      rw [sub_self, mul_zero, sub_zero] at this
      exact this.mono_left nhdsWithin_le_nhds
    refine tendsto_of_tendsto_of_tendsto_of_le_of_le' tl tendsto_const_nhds ?_ ?_
    · filter_upwards [hev] with t ht
      have := (hE t ht.1 ht.2).2.2.2
      linarith
    · filter_upwards [hev] with t ht
      obtain ⟨-, k1, k2, -⟩ := hE t ht.1 ht.2
      nlinarith
  have hrel : ∀ t, 0 ≤ t → t < 1 → g t ^ 2 - 2 * g t + a ^ 2 + a * x * Spec.sphericalSigma a (g t) x
      = Spec.sphericalE a (g t) x * √(Spec.sphericalN a (g t) x) := by
    intro t ht ht1
    unfold Spec.sphericalE
    rw [div_mul_cancel₀ _ (Real.sqrt_pos.mpr (hE t ht ht1).1).ne']
  have hM2 : (g 1 ^ 2 - 2 * g 1 + a ^ 2 + a * x * Spec.sphericalSigma a (g 1) x) ^ 2 = Spec.sphericalN a (g 1) x := by
    have t2 : Tendsto (fun t => Spec.sphericalE a (g t) x ^ 2 * Spec.sphericalN a (g t) x) (𝓝[<] 1)
        (𝓝 (1 * Spec.sphericalN a (g 1) x)) := tE.mul tN
    rw [one_mul] at t2
    refine tendsto_nhds_unique ((tM.pow 2).congr' ?_) t2
    filter_upwards [hev] with t ht
    rw [hrel t ht.1 ht.2, mul_pow, Real.sq_sqrt (hE t ht.1 ht.2).1.le]
  have hM0 : 0 ≤ g 1 ^ 2 - 2 * g 1 + a ^ 2 + a * x * Spec.sphericalSigma a (g 1) x := by
    refine ge_of_tendsto tM ?_
    filter_upwards [hev] with t ht
    rw [hrel t ht.1 ht.2]
    exact mul_nonneg (hE t ht.1 ht.2).2.1 (Real.sqrt_nonneg _)
  have hN0 : 0 < Spec.sphericalN a (g 1) x := by
    refine lt_of_le_of_ne (by rw [← hM2]; positivity) fun h => ?_
    rw [← h] at hM2
    have hM : g 1 ^ 2 - 2 * g 1 + a ^ 2 + a * x * Spec.sphericalSigma a (g 1) x = 0 := pow_eq_zero_iff two_ne_zero |>.mp hM2
    have hD : 0 < g 1 ^ 2 - 2 * g 1 + a ^ 2 := by nlinarith
    have hc0 : 0 < g 1 ^ 2 + a ^ 2 * (1 - x ^ 2) := by
      have : 0 ≤ a ^ 2 * (1 - x ^ 2) := mul_nonneg (sq_nonneg a) (by linarith)
      positivity
    unfold Spec.sphericalN at h
    have hσ := (mul_eq_zero.mp h.symm).resolve_left hc0.ne'
    have hκ : 0 < Spec.sphericalSigma a (g 1) x + a * x := by
      unfold Spec.sphericalSigma
      rw [sub_add_cancel]
      refine Real.sqrt_pos.mpr (div_pos ?_ hg0)
      have : a ^ 2 * (1 - x ^ 2) ≤ 1 := by nlinarith [sq_nonneg x, sq_nonneg a, sq_nonneg (a * x)]
      nlinarith
    generalize Spec.sphericalSigma a (g 1) x = σ at *
    have h6 : σ * (σ + a * x) = 0 := by linear_combination hM - hσ
    rcases mul_eq_zero.mp h6 with h7 | h7
    · rw [h7] at hσ; linarith
    · exact absurd h7 hκ.ne'
  refine ⟨_, hs, h1 ▸ hout, h1 ▸ hN0, ?_⟩
  rw [← h1]
  unfold Spec.sphericalE
  rw [← hM2, Real.sqrt_sq hM0, div_self]
  intro h
  rw [h] at hM2
  rw [← hM2] at hN0
  norm_num at hN0

/-- **C83 (radial frequency).** The Mino radial frequency of an accepted orbit with `e = 0` is the square root of the closed
stability function, the frequency of small radial oscillations; it is positive. -/
theorem C83_radial_frequency (rs : RootScalar) (a p x : ℝ) (h : Spec.BoundOrbit rs a p 0 x) (hx0 : x ≠ 0)
    (hd : 0 < Spec.signedX a x → p ≤ 4 → Spec.DivisorsNonzero a p 0 x) :
    rFrequency rs a p 0 x = .ok √(Spec.sphericalStability a p x) ∧ 0 < √(Spec.sphericalStability a p x) := by
  obtain ⟨hcs, -, hS⟩ := C83_spherical_constants rs a p x h hd
  refine ⟨?_, Real.sqrt_pos.mpr hS⟩
  obtain ⟨b, hc, d⟩ := bound_std h
  obtain ⟨E, L, Q, c, hs⟩ := constants_stable b (abs_nonneg a) one_pos fun h1 h2 => d.mpr (hd h1 h2)
  rw [hc, hcs] at c
  have hEL := Except.ok.inj c
  simp only [Prod.mk.injEq] at hEL
  obtain ⟨hE, -, hQ⟩ := hEL
  obtain ⟨hhor, hE0, hE1, -, -, -, r3, r4, hR, -⟩ := id hs
  have hE2 : E ^ 2 < 1 := by nlinarith
  have hsn := Real.sqrt_nonneg (1 - a ^ 2)
  rw [sq_abs] at hhor
  obtain ⟨r1', r2', r3', r4', hk, rfl, rfl, hR', -, h2, h3, h4, -⟩ := C08_bound rs |a| p 0 (Spec.signedX a x) E L Q
    (by rw [sq_abs]; nlinarith [abs_lt.mp h.1]) hE2 le_rfl one_pos (by rw [sq_abs]; exact hhor) (RadialRoots.turning hR)
  rw [sub_zero, add_zero, div_one] at hR'
  rw [add_zero, div_one] at hhor
  -- the code's own roots
  have hg := (C12_frequency_contract rs a p 0 x none none none).1.1.mpr ⟨h, hx0, zero_ne_one⟩
  obtain ⟨v, hv⟩ := hg
  rw [hv]
  rw [rFrequency_eq, guard_bind_ok_iff] at hv
  obtain ⟨-, rfl⟩ := hv
  have hpc : pureConsts (sa a) p 0 (sx a x) = (E, L, Q) := by
    have k := (constantsOfMotion_of_bound h).symm.trans hcs
    rw [Except.ok.inj k]
    rw [Except.ok.inj c]
  have hcore : stableRadialRootsCore (sa a) p 0 (E, L, Q) = (p / (1 - 0), p / (1 + 0), r3', r4') := Except.ok.inj hk
  rw [Option.getD_none, hpc, hcore]
  congr 1
  unfold rFrequencyCore kR
  rw [sub_zero, add_zero, div_one]
  simp only
  rw [sub_self, zero_mul, zero_div, Real.sqrt_zero, zero_pow two_ne_zero, ellipk_zero]
  obtain ⟨v1, -, -, v4⟩ := RadialRoots.vieta hR'
  rw [sq_abs] at v4
  have hp0 : 0 < p := by linarith
  have key : (1 - E ^ 2) * (p - r3') * (p - r4') = Spec.sphericalStability a p x := by
    unfold Spec.sphericalStability
    rw [hE, hQ, ← v4]
    field_simp
    linear_combination -p * v1
  rw [key]
  have := Real.pi_pos
  field_simp

end KGP
