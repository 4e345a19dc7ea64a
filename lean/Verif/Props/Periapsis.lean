import Verif.Props.Binding
import Verif.Props.GeodesicApi

/-!
# C80 — how close a bound orbit can come

No orbit the library accepts as bound has its periapsis at or inside the marginally bound radius `2 - |a| + 2 √(1 - |a|)` of
its hole, every radius outside is the periapsis of one, and a retrograde equatorial orbit stays outside
`2 + |a| + 2 √(1 + |a|)`.
-/

namespace KGP

open Classical Real Filter Topology SepCert Schmidt

/-- Among the marginally stable equatorial orbits with a given periapsis the parabolic one belongs to the smallest spin. -/
lemma equatorialSpin_ge {e p : ℝ} (he : 0 ≤ e) (he1 : e ≤ 1) (hp : 1 + e ≤ p) :
    2 * √(p / (1 + e)) - p / (1 + e) ≤ Spec.equatorialSpin e p := by
  have h1 : 0 < 1 + e := by linarith
  have h3 : 0 < 3 - e := by linarith
  have hr : 1 ≤ p / (1 + e) := by rw [le_div_iff₀ h1]; linarith
  obtain ⟨r, hrd⟩ : ∃ r, r = p / (1 + e) := ⟨_, rfl⟩
  have hpr : p = r * (1 + e) := by rw [hrd, div_mul_cancel₀ _ h1.ne']
  unfold Spec.equatorialSpin
  rw [← hrd] at hr ⊢
  have y1 : 1 ≤ √r := Real.one_le_sqrt.mpr hr
  have y2 := Real.sq_sqrt (by linarith : 0 ≤ r)
  have hu : √((3 - e) * p - 2 * (1 - e ^ 2)) ≤ (3 - e) * √r - 2 * (1 - e) := by
    refine Real.sqrt_le_iff.mpr ⟨?_, ?_⟩
    · have := mul_le_mul_of_nonneg_left y1 h3.le
      linarith
    · rw [hpr]
      generalize √r = y at *
      have : 0 ≤ 2 * (1 - e) * (3 - e) * (y - 1) ^ 2 := by
        have : 0 ≤ 1 - e := by linarith
        positivity
      rw [← y2]
      linear_combination this
  generalize √((3 - e) * p - 2 * (1 - e ^ 2)) = u at *
  generalize √r = y at *
  rw [le_div_iff₀ h3, ← y2]
  have := mul_le_mul_of_nonneg_left hu (by linarith : 0 ≤ y)
  linear_combination this

/-- The periapsis of a marginally stable equatorial orbit is not inside the marginally bound orbit. -/
lemma equatorial_periapsis {a e x s : ℝ} (rs : RootScalar) (ha : 0 ≤ a) (ha1 : a < 1) (he : 0 ≤ e) (he1 : e ≤ 1) (hx : |x| = 1)
    (hs : separatrix rs a e x = .ok s) : Spec.marginallyBound (a * x) 1 ≤ s / (1 + e) := by
  obtain ⟨t, ht, k1, k2, -⟩ := C69_equatorial rs a e x ha ha1 he he1 hx
  obtain rfl := Except.ok.inj (hs.symm.trans ht)
  have h := equatorialSpin_ge he he1 k1
  unfold Spec.equatorialSpin at h
  rw [← k2] at h
  have hr : 1 ≤ s / (1 + e) := by rw [le_div_iff₀ (by linarith)]; linarith
  have y1 : 1 ≤ √(s / (1 + e)) := Real.one_le_sqrt.mpr hr
  have y2 := Real.sq_sqrt (by linarith : 0 ≤ s / (1 + e))
  unfold Spec.marginallyBound
  generalize √(s / (1 + e)) = y at *
  have hz : √(1 - 1 * (a * x)) ≤ y - 1 := Real.sqrt_le_iff.mpr ⟨by linarith, by nlinarith⟩
  have hax : |a * x| ≤ a := by rw [abs_mul, hx, mul_one, abs_of_nonneg ha]
  have h0 := Real.sq_sqrt (by linarith [le_abs_self (a * x)] : 0 ≤ 1 - 1 * (a * x))
  have h1 := Real.sqrt_nonneg (1 - 1 * (a * x))
  generalize √(1 - 1 * (a * x)) = z at *
  nlinarith

/-- **C80.** The periapsis `p / (1 + e)` of every accepted bound orbit lies outside the marginally bound radius
`2 - |a| + 2 √(1 - |a|)`, that of a retrograde equatorial orbit outside `2 + |a| + 2 √(1 + |a|)`. -/
theorem C80_periapsis (rs : RootScalar) (a p e x : ℝ) (h : Spec.BoundOrbit rs a p e x) :
    2 - |a| + 2 * √(1 - |a|) < p / (1 + e)
    ∧ (Spec.signedX a x = -1 → 2 + |a| + 2 * √(1 + |a|) < p / (1 + e)) := by
  obtain ⟨ha, ⟨he, he1⟩, hx, s, hs, hsp⟩ := h
  have hX := abs_le.mp (by rw [abs_signedX]; exact hx : |Spec.signedX a x| ≤ 1)
  have h1 : 0 < 1 + e := by linarith
  have h0 := abs_nonneg a
  constructor
  · obtain ⟨t, ht, hts⟩ : ∃ t, separatrix rs |a| e 1 = .ok t ∧ t ≤ s := by
      rcases eq_or_lt_of_le hX.2 with k | k
      · exact ⟨s, k ▸ hs, le_rfl⟩
      rcases eq_or_lt_of_le h0 with k0 | k0
      · rw [← k0] at hs ⊢
        rw [C07_separatrix rs e _ he he1 hX.1 hX.2] at hs
        exact ⟨_, C07_separatrix rs e 1 he he1 (by norm_num) le_rfl, (Except.ok.inj hs).le⟩
      · obtain ⟨⟨s1, s2, k1, k2, k3⟩, -⟩ := C64_inclination rs |a| e _ 1 k0 ha he he1 hX.1 k le_rfl
        rw [hs] at k1
        obtain rfl := Except.ok.inj k1
        exact ⟨s2, k2, k3.le⟩
    have := equatorial_periapsis rs h0 ha he he1 (by norm_num) ht
    unfold Spec.marginallyBound at this
    rw [show 1 * (|a| * 1) = |a| by ring] at this
    have h2 : t / (1 + e) < p / (1 + e) := div_lt_div_of_pos_right (by linarith) h1
    linarith
  · intro hm
    rw [hm] at hs
    have := equatorial_periapsis rs h0 ha he he1 (by norm_num) hs
    unfold Spec.marginallyBound at this
    rw [show 1 * (|a| * -1) = -|a| by ring, sub_neg_eq_add, sub_neg_eq_add] at this
    have h2 : s / (1 + e) < p / (1 + e) := div_lt_div_of_pos_right (by linarith) h1
    linarith

/-- **C80 (sharpness).** The radii outside the marginally bound orbit are exactly the periapses of accepted orbits with `e < 1`. -/
theorem C80_sharp (rs : RootScalar) (a r : ℝ) (ha : |a| < 1) :
    2 - |a| + 2 * √(1 - |a|) < r ↔ ∃ p e x, Spec.BoundOrbit rs a p e x ∧ e < 1 ∧ p / (1 + e) = r := by
  constructor
  · intro hr
    have h0 := abs_nonneg a
    have hmb := (C51_marginally_bound rs |a| h0 ha).1
    unfold Spec.marginallyBound at hmb
    rw [one_mul] at hmb
    have hz := Real.sqrt_nonneg (1 - |a|)
    have hm0 : 0 < 2 - |a| + 2 * √(1 - |a|) := by linarith
    generalize 2 - |a| + 2 * √(1 - |a|) = b at *
    have hB : ∀ p e, 0 ≤ e → e < 1 → 2 * b ≤ p → Spec.BoundOrbit rs a p e (Spec.signedX a 1) := by
      intro p e he he1 hp
      obtain ⟨⟨s1, s2, k1, k2, k3⟩, -⟩ := C67_separatrix rs |a| e 1 1 h0 ha he he1 le_rfl (by norm_num) le_rfl
      rw [hmb] at k2
      have := Except.ok.inj k2
      refine ⟨ha, ⟨he, he1.le⟩, by rw [abs_signedX]; norm_num, s1, ?_, by linarith⟩
      rw [signedX_signedX]
      exact k1
    rcases le_or_gt r (2 * b) with k | k
    · have hr0 : 0 < r := by linarith
      refine ⟨2 * b, 2 * b / r - 1, _, hB _ _ ?_ ?_ le_rfl, ?_, ?_⟩
      · rw [sub_nonneg, le_div_iff₀ hr0]; linarith
      · rw [sub_lt_iff_lt_add, div_lt_iff₀ hr0]; linarith
      · rw [sub_lt_iff_lt_add, div_lt_iff₀ hr0]; linarith
      · rw [add_sub_cancel, div_div_cancel₀ (by positivity)]
    · exact ⟨r, 0, _, hB r 0 le_rfl one_pos k.le, one_pos, by rw [add_zero, div_one]⟩
  · rintro ⟨p, e, x, h, -, rfl⟩
    exact (C80_periapsis rs a p e x h).1

/-- **C80 (trajectories).** The radial coordinate of the trajectory of an accepted orbit never comes to the marginally bound
radius, whatever its initial phases. -/
theorem C80_trajectory (rs : RootScalar) (a p e x : ℝ) (q : Phases) (h : Spec.BoundOrbit rs a p e x) (ha : 0 ≤ a)
    (he1 : e ≠ 1) (hx0 : x ≠ 0) (hp : 0 < x → p ≤ 4 → Spec.DivisorsNonzero a p e x)
    (hne : x < 0 ∨ ∀ E L Q, constantsOfMotion rs a p e x = .ok (E, L, Q) →
      E * ((1 + √(1 - a ^ 2)) ^ 2 + a ^ 2) ≠ a * L) :
    ∃ T, stableTrajectoryNat rs a p e x q = .ok T ∧ ∀ lam, 2 - a + 2 * √(1 - a) < T.r lam := by
  obtain ⟨T, m, E, L, Q, r1, r2, r3, r4, hT, hm, hc, hr, hb, -⟩ := orbit_hyps q h ha he1 hx0 hp hne
  refine ⟨T, hT, fun lam => ?_⟩
  have h1 := (C80_periapsis rs a p e x h).1
  rw [abs_of_nonneg ha] at h1
  exact lt_of_lt_of_le h1 ((C20_radial ha hT hm hc hr hb).1 lam).1

/-- Non-vacuity: around a Schwarzschild hole the periapses of bound orbits are the radii above 4. -/
example (rs : RootScalar) : ∃ p e x, Spec.BoundOrbit rs 0 p e x ∧ e < 1 ∧ p / (1 + e) = 4 + 1 / 100 :=
  (C80_sharp rs 0 _ (by norm_num)).mp (by rw [abs_zero, sub_zero, sub_zero, Real.sqrt_one]; norm_num)

/-- Non-vacuity of the trajectory theorem: a retrograde inclined orbit around a spinning hole. -/
example (rs : RootScalar) (q : Phases) :
    ∃ T, stableTrajectoryNat rs (3 / 4) 13 (1 / 2) (-1 / 3) q = .ok T ∧ ∀ lam, 2 - 3 / 4 + 2 * √(1 - 3 / 4) < T.r lam :=
  C80_trajectory rs (3 / 4) 13 (1 / 2) (-1 / 3) q
    (C11_accepts_wide rs _ _ _ _ (by rw [abs_of_pos] <;> norm_num) (by norm_num) (by norm_num)
      (by rw [abs_of_neg] <;> norm_num) (by norm_num))
    (by norm_num) (by norm_num) (by norm_num) (fun h => absurd h (by norm_num)) (.inl (by norm_num))

end KGP
