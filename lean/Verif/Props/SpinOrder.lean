import Verif.Props.EnergyOrder
import Verif.Lemmas.SpinOrder

/-!
# C69, C70 — equatorial orbits in closed form, and how the constants of motion depend on the spin

The separatrix of equatorial orbits of every eccentricity is the solution of a closed equation for the (signed) spin, the
generalisation of `a = √r (4 - √(3 r - 2)) / 3` for the innermost stable circular orbit.  Along equatorial orbits of the same
size and shape the energy and the angular momentum decrease strictly with the signed spin, along polar orbits the energy and
the Carter constant decrease strictly with the spin.
-/

namespace KGP

open Classical Real Filter Topology SepCert Schmidt

/-- The spin (negative for a retrograde orbit) at which the equatorial orbit with semi-latus rectum `p` and eccentricity
`e` is marginally stable. -/
noncomputable def Spec.equatorialSpin (e p : ℝ) : ℝ :=
  √(p / (1 + e)) * (4 - √((3 - e) * p - 2 * (1 - e ^ 2))) / (3 - e)

lemma equatorialSpin_u {e p : ℝ} (he : 0 ≤ e) (he1 : e ≤ 1) (hp : 1 + e ≤ p) :
    (1 + e) ^ 2 ≤ (3 - e) * p - 2 * (1 - e ^ 2) := by nlinarith

lemma equatorialSpin_anti {e : ℝ} (he : 0 ≤ e) (he1 : e ≤ 1) : StrictAntiOn (Spec.equatorialSpin e) (Set.Ici (1 + e)) := by
  have hf : Spec.equatorialSpin e = fun p => √(p / (1 + e)) * (4 - √((3 - e) * p - 2 * (1 - e ^ 2))) / (3 - e) := rfl
  have hk : 0 < 3 - e := by linarith
  have hd : ∀ p, 1 + e ≤ p → HasDerivAt (Spec.equatorialSpin e)
      ((1 / (1 + e) / (2 * √(p / (1 + e))) * (4 - √((3 - e) * p - 2 * (1 - e ^ 2)))
        + √(p / (1 + e)) * -((3 - e) / (2 * √((3 - e) * p - 2 * (1 - e ^ 2))))) / (3 - e)) p := by
    intro p hp
    have u0 := equatorialSpin_u he he1 hp
    have u1 : 0 < (3 - e) * p - 2 * (1 - e ^ 2) := lt_of_lt_of_le (by positivity) u0
    have p0 : 0 < p / (1 + e) := div_pos (by linarith) (by linarith)
    have d1 : HasDerivAt (fun p => p / (1 + e)) (1 / (1 + e)) p := (hasDerivAt_id p).div_const _
    have d2 : HasDerivAt (fun p => (3 - e) * p - 2 * (1 - e ^ 2)) (3 - e) p := by
      have := ((hasDerivAt_id p).const_mul (3 - e)).sub_const (2 * (1 - e ^ 2))
      refine this.congr_deriv (by ring)
    have d := ((d1.sqrt p0.ne').mul ((d2.sqrt u1.ne').const_sub 4)).div_const (3 - e)
    rw [hf]
    exact d
  refine strictAntiOn_of_deriv_neg (convex_Ici _) (fun p hp => (hd p hp).continuousAt.continuousWithinAt) fun p hp => ?_
  rw [interior_Ici] at hp
  have hp' : 1 + e < p := hp
  rw [(hd p hp'.le).deriv]
  have u0 := equatorialSpin_u he he1 hp'.le
  have u1 : (1 + e) ^ 2 < (3 - e) * p - 2 * (1 - e ^ 2) := by nlinarith
  have p0 : 0 < p / (1 + e) := div_pos (by linarith) (by linarith)
  have y0 := Real.sqrt_pos.mpr p0
  have y2 := Real.sq_sqrt p0.le
  have v0 : 1 + e < √((3 - e) * p - 2 * (1 - e ^ 2)) := Real.lt_sqrt_of_sq_lt u1
  have v2 := Real.sq_sqrt ((sq_nonneg (1 + e)).trans u0)
  generalize √(p / (1 + e)) = y at *
  generalize √((3 - e) * p - 2 * (1 - e ^ 2)) = u at *
  have hu0 : 0 < u := by linarith
  have he2 : 0 < 1 + e := by linarith
  have hy : y ^ 2 * (1 + e) = p := by rw [y2, div_mul_cancel₀ _ he2.ne']
  have e1 : (1 / (1 + e) / (2 * y) * (4 - u) + y * -((3 - e) / (2 * u))) / (3 - e)
      = (4 * u - 2 * u ^ 2 - 2 * (1 - e ^ 2)) / ((1 + e) * (2 * y) * u * (3 - e)) := by
    field_simp
    linear_combination -(3 - e) * hy + v2
  rw [e1]
  refine div_neg_of_neg_of_pos ?_ (by positivity)
  nlinarith [mul_pos (sub_pos.mpr v0) (show 0 < u - (1 - e) by linarith)]

/-- the separatrix polynomial of equatorial orbits in factors -/
lemma equatorial_factors {a e s y u : ℝ} (hy : y ^ 2 * (1 + e) = s) (hu : u ^ 2 = (3 - e) * s - 2 * (1 - e ^ 2)) :
    (1 + e) ^ 2 * (((3 - e) * a - y * (4 - u)) * ((3 - e) * a + y * (4 - u))
      * (((3 - e) * a - y * (4 + u)) * ((3 - e) * a + y * (4 + u)))) = (3 - e) ^ 2 * SEquatorial s a e := by
  have e1 : ((3 - e) * a - y * (4 - u)) * ((3 - e) * a + y * (4 - u))
      * (((3 - e) * a - y * (4 + u)) * ((3 - e) * a + y * (4 + u)))
      = ((3 - e) * a) ^ 4 - ((3 - e) * a) ^ 2 * y ^ 2 * (32 + 2 * u ^ 2) + y ^ 2 * y ^ 2 * (16 - u ^ 2) ^ 2 := by ring
  rw [e1, hu, ← hy]
  unfold SEquatorial
  ring

lemma equatorialSpin_value {a e x s : ℝ} (ha : 0 ≤ a) (ha1 : a < 1) (he : 0 ≤ e) (he1 : e ≤ 1) (hx : |x| = 1)
    (hv : IsSeparatrixValue a e x s) : 1 + e ≤ s ∧ a * x = Spec.equatorialSpin e s := by
  have hk : 0 < 3 - e := by linarith
  have hx' : x = 1 ∨ x = -1 := by
    rcases le_or_gt 0 x with h | h
    · left; rwa [abs_of_nonneg h] at hx
    · right; rw [abs_of_neg h] at hx; linarith
  have hs1 : 1 + e ≤ s := by
    rcases eq_or_ne a 0 with h | h
    · rw [hv.zero h]; linarith
    · rcases hx' with h' | h'
      · exact (hv.prograde h h').2.1
      · have := (hv.retrograde h h').2.1
        linarith
  refine ⟨hs1, ?_⟩
  have u0 := equatorialSpin_u he he1 hs1
  have p0 : 0 < s / (1 + e) := div_pos (by linarith) (by linarith)
  have p1 : 1 ≤ s / (1 + e) := by rw [le_div_iff₀ (by linarith)]; linarith
  have y1 : 1 ≤ √(s / (1 + e)) := Real.one_le_sqrt.mpr p1
  have y2 := Real.sq_sqrt p0.le
  have v0 := Real.sqrt_nonneg ((3 - e) * s - 2 * (1 - e ^ 2))
  have v2 := Real.sq_sqrt ((sq_nonneg (1 + e)).trans u0)
  unfold Spec.equatorialSpin
  generalize √(s / (1 + e)) = y at *
  generalize √((3 - e) * s - 2 * (1 - e ^ 2)) = u at *
  have he2 : 0 < 1 + e := by linarith
  have hy : y ^ 2 * (1 + e) = s := by rw [y2, div_mul_cancel₀ _ he2.ne']
  rw [eq_div_iff hk.ne']
  have h16 : u ^ 2 - 16 = (3 - e) * (s - (6 + 2 * e)) := by rw [v2]; ring
  rcases eq_or_ne a 0 with h | h
  · have hs := hv.zero h
    have : u ^ 2 = 4 ^ 2 := by rw [hs] at h16; linarith
    have hu4 : u = 4 := (sq_eq_sq₀ v0 (by norm_num)).mp this
    rw [h, hu4]; ring
  · have ha0 : 0 < a := lt_of_le_of_ne ha (Ne.symm h)
    have hka : 0 < (3 - e) * a := mul_pos hk ha0
    have hka3 : (3 - e) * a < 3 := by nlinarith
    have hfar : (3 - e) * a < y * (4 + u) := by nlinarith
    have fac := equatorial_factors (a := a) hy v2
    have main : SEquatorial s a e = 0 →
        ((3 - e) * a - y * (4 - u)) * ((3 - e) * a + y * (4 - u)) = 0 := by
      intro h0
      rw [h0, mul_zero] at fac
      have n1 : ((3 - e) * a - y * (4 + u)) * ((3 - e) * a + y * (4 + u)) ≠ 0 :=
        mul_ne_zero (by linarith) (by positivity)
      rcases mul_eq_zero.mp fac with h | h
      · exact absurd h (by positivity)
      · exact (mul_eq_zero.mp h).resolve_right n1
    rcases hx' with h' | h'
    · obtain ⟨z, -, l2⟩ := hv.prograde h h'
      have hu4 : u ≤ 4 := by
        refine abs_le_of_sq_le_sq' ?_ (by norm_num) |>.2
        have := mul_nonneg hk.le (sub_nonneg.mpr l2)
        linarith
      have n2 : (3 - e) * a + y * (4 - u) ≠ 0 := by
        have : 0 ≤ y * (4 - u) := mul_nonneg (by linarith) (by linarith)
        linarith
      have := (mul_eq_zero.mp (main z)).resolve_right n2
      rw [h']; linarith
    · obtain ⟨z, l1, -⟩ := hv.retrograde h h'
      have hu4 : 4 ≤ u := by
        refine abs_le_of_sq_le_sq' ?_ v0 |>.2
        have := mul_nonneg hk.le (sub_nonneg.mpr l1)
        linarith
      have n2 : (3 - e) * a - y * (4 - u) ≠ 0 := by
        have : 0 ≤ y * (u - 4) := mul_nonneg (by linarith) (by linarith)
        linarith
      have := (mul_eq_zero.mp (main z)).resolve_left n2
      rw [h']; linarith

/-- **C69.** For every spin, eccentricity and root finder the separatrix of prograde (`x = 1`) and retrograde (`x = -1`)
equatorial orbits is the only solution `s ≥ 1 + e` of
`a x = √(s / (1 + e)) (4 - √((3 - e) s - 2 (1 - e²))) / (3 - e)`, and `is_stable` accepts exactly the larger `p`, those for
which the right-hand side is smaller than the signed spin. -/
theorem C69_equatorial (rs : RootScalar) (a e x : ℝ) (ha : 0 ≤ a) (ha1 : a < 1) (he : 0 ≤ e) (he1 : e ≤ 1) (hx : |x| = 1) :
    ∃ s, separatrix rs a e x = .ok s ∧ 1 + e ≤ s
      ∧ a * x = √(s / (1 + e)) * (4 - √((3 - e) * s - 2 * (1 - e ^ 2))) / (3 - e)
      ∧ (∀ s', 1 + e ≤ s' → a * x = Spec.equatorialSpin e s' → s' = s)
      ∧ ∀ p, isStable rs a p e x = .ok true ↔ 1 + e ≤ p ∧ Spec.equatorialSpin e p < a * x := by
  have hX := abs_le.mp hx.le
  obtain ⟨s, hs, hv⟩ := C15_separatrix_returns rs a e x ha ha1 he he1 hX.1 hX.2
  obtain ⟨h1, h2⟩ := equatorialSpin_value ha ha1 he he1 hx hv
  have hanti := equatorialSpin_anti he he1
  refine ⟨s, hs, h1, h2, fun s' h3 h4 => hanti.injOn h3 h1 (h4.symm.trans h2), fun p => ?_⟩
  rw [(C16_threshold rs a e x).2.1 p s hs, h2]
  constructor
  · intro h
    exact ⟨by linarith, hanti h1 (Set.mem_Ici.mpr (by linarith)) h⟩
  · rintro ⟨h3, h4⟩
    exact (hanti.lt_iff_gt h3 h1).mp h4

/-- Non-vacuity of C69: the innermost stable circular orbit `4` of a hole with spin `(8 - 2 √10) / 3 = 0.558...`. -/
example (rs : RootScalar) : separatrix rs ((8 - 2 * √10) / 3) 0 1 = .ok 4 := by
  have h1 : 3 < √10 := Real.lt_sqrt_of_sq_lt (by norm_num)
  have h2 : √10 ≤ 4 := Real.sqrt_le_iff.mpr (by norm_num)
  obtain ⟨s, hs, -, -, h, -⟩ := C69_equatorial rs ((8 - 2 * √10) / 3) 0 1 (by linarith) (by linarith) le_rfl zero_le_one
    (by norm_num)
  rw [hs, h 4 (by norm_num)]
  unfold Spec.equatorialSpin
  rw [show (4:ℝ) / (1 + 0) = 2 ^ 2 by norm_num, Real.sqrt_sq (by norm_num), show (3 - 0) * 4 - 2 * (1 - (0:ℝ) ^ 2) = 10 by norm_num]
  ring

lemma spin_std (a x : ℝ) : |a| * Spec.signedX a x = a * x := by
  unfold Spec.signedX
  split_ifs with h
  · rw [abs_of_neg h]; ring
  · rw [abs_of_nonneg (not_lt.mp h)]

/-- **C70 (the orbits themselves).** Stable equatorial orbits with the same turning points: the energy and the angular
momentum (in absolute value) decrease with the signed spin; stable polar orbits with the same turning points: the energy
and the Carter constant decrease with the spin. -/
theorem C70_orbits (a a' p e x x' E L Q E' L' Q' : ℝ) (ha : 0 ≤ a) (ha1 : a < 1) (ha' : 0 ≤ a') (ha1' : a' < 1)
    (he : 0 ≤ e) (he1 : e < 1) (h : Spec.StableConstants a p e x E L Q) (h' : Spec.StableConstants a' p e x' E' L' Q') :
    (|x| = 1 → |x'| = 1 → a * x < a' * x' → E' < E ∧ |L'| < |L|)
    ∧ (x = 0 → x' = 0 → a < a' → E' < E ∧ Q' < Q) := by
  constructor
  · intro hx hx' hlt
    have x2 : x ^ 2 = 1 := by rw [← sq_abs, hx, one_pow]
    have x2' : x' ^ 2 = 1 := by rw [← sq_abs, hx', one_pow]
    obtain ⟨Y, o, hL, -⟩ := StableConstants.orb ha ha1 he he1 x2.le h
    obtain ⟨Y', o', hL', -⟩ := StableConstants.orb ha' ha1' he he1 x2'.le h'
    rw [show a ^ 2 = (a * x) ^ 2 by rw [mul_pow, x2, mul_one]] at o
    rw [show a' ^ 2 = (a' * x') ^ 2 by rw [mul_pow, x2', mul_one]] at o'
    obtain ⟨k1, k2⟩ := EMono.equatorial_order o o' hlt
    refine ⟨k1, ?_⟩
    rw [hL, hL', abs_mul, abs_mul, hx, hx', one_mul, one_mul, abs_of_pos o.hY, abs_of_pos o'.hY]
    exact k2
  · intro hx hx' hlt
    subst hx hx'
    obtain ⟨Y, o, -, hQ⟩ := StableConstants.orb ha ha1 he he1 (by norm_num) h
    obtain ⟨Y', o', -, hQ'⟩ := StableConstants.orb ha' ha1' he he1 (by norm_num) h'
    rw [mul_zero] at o o'
    have hp5 : 5 < p := by
      obtain ⟨s, hs, hv⟩ := C15_separatrix_returns exampleRS a' e 0 ha' ha1' he he1.le (by norm_num) (by norm_num)
      have hsp : s < p := ((C16_threshold exampleRS a' e 0).2.1 p s hs).mp
        ((C16_exact exampleRS a' p e 0 ha' ha1' he he1 (by norm_num) (by norm_num)).1.mpr
          (stableOrbit_iff.mpr ⟨_, _, _, h'⟩))
      have b := (hv.polar (by linarith) rfl).2.1
      have r3 : (1.7 : ℝ) < √3 := Real.lt_sqrt_of_sq_lt (by norm_num)
      have r4 : (2.5 : ℝ) < √(3 + 2 * √3) := Real.lt_sqrt_of_sq_lt (by nlinarith)
      linarith
    have hS : 4 < p / (1 - e) + p / (1 + e) := by
      have q1 : p ≤ p / (1 - e) := by rw [le_div_iff₀ (by linarith)]; nlinarith
      have q2 : 0 < p / (1 + e) := div_pos (by linarith) (by linarith)
      linarith
    obtain ⟨k1, k2⟩ := EMono.polar_order o o' (by nlinarith) hS
    refine ⟨k1, ?_⟩
    rw [hQ, hQ']
    linarith

/-- **C70 (equatorial orbits).** Let the signed spin `a x` (with `x = ±1`; positive for prograde, negative for retrograde
orbits, whatever the sign of `a`) grow at fixed `p` and `e`: the orbit stays accepted, and `constants_of_motion` returns a
smaller energy and a smaller angular momentum in absolute value.  For prograde orbits with `p ≤ 4` the divisors of the
code's formulas are assumed not to vanish at the two orbits compared. -/
theorem C70_equatorial (rs : RootScalar) (a a' p e x x' : ℝ) (h : Spec.BoundOrbit rs a p e x) (he1 : e < 1)
    (hx : |x| = 1) (hx' : |x'| = 1) (ha' : |a'| < 1) (hlt : a * x < a' * x')
    (hd : 0 < Spec.signedX a x → p ≤ 4 → Spec.DivisorsNonzero a p e x)
    (hd' : 0 < Spec.signedX a' x' → p ≤ 4 → Spec.DivisorsNonzero a' p e x') :
    Spec.BoundOrbit rs a' p e x'
    ∧ ∃ E L Q E' L' Q', constantsOfMotion rs a p e x = .ok (E, L, Q) ∧ constantsOfMotion rs a' p e x' = .ok (E', L', Q')
      ∧ E' < E ∧ |L'| < |L| := by
  have hX : |Spec.signedX a x| = 1 := by rw [abs_signedX]; exact hx
  have hX' : |Spec.signedX a' x'| = 1 := by rw [abs_signedX]; exact hx'
  have h' : Spec.BoundOrbit rs a' p e x' := by
    obtain ⟨h1, h2, h3, s, hs, hsp⟩ := id h
    obtain ⟨s1, k1, k2, k3, k4, k5⟩ := C69_equatorial rs |a| e _ (abs_nonneg a) h1 h2.1 h2.2 hX
    obtain ⟨s2, j1, j2, j3, j4, j5⟩ := C69_equatorial rs |a'| e _ (abs_nonneg a') ha' h2.1 h2.2 hX'
    obtain rfl : s = s1 := Except.ok.inj (hs.symm.trans k1)
    refine ⟨ha', h2, hx'.le, s2, j1, ?_⟩
    rw [spin_std] at k3 j3
    have : s2 < s := ((equatorialSpin_anti h2.1 h2.2).lt_iff_gt k2 j2).mp (by
      change √(s / (1 + e)) * (4 - √((3 - e) * s - 2 * (1 - e ^ 2))) / (3 - e)
        < √(s2 / (1 + e)) * (4 - √((3 - e) * s2 - 2 * (1 - e ^ 2))) / (3 - e)
      rw [← k3, ← j3]; exact hlt)
    linarith
  refine ⟨h', ?_⟩
  obtain ⟨b, hc, d⟩ := bound_std h
  obtain ⟨b', hc', d'⟩ := bound_std h'
  obtain ⟨E, L, Q, c, hs⟩ := constants_stable b (abs_nonneg a) he1 fun h1 h2 => d.mpr (hd h1 h2)
  obtain ⟨E', L', Q', c', hs'⟩ := constants_stable b' (abs_nonneg a') he1 fun h1 h2 => d'.mpr (hd' h1 h2)
  rw [hc] at c
  rw [hc'] at c'
  obtain ⟨o1, o2⟩ := (C70_orbits _ _ p e _ _ _ _ _ _ _ _ (abs_nonneg a) h.1 (abs_nonneg a') ha' h.2.1.1 he1 hs hs').1 hX hX'
    (by rw [spin_std, spin_std]; exact hlt)
  exact ⟨E, L, Q, E', L', Q', c, c', o1, o2⟩

/-- **C70 (polar orbits).** Let the magnitude of the spin grow at fixed `p` and `e`: a polar orbit stays accepted, and
`constants_of_motion` returns a smaller energy and a smaller Carter constant. -/
theorem C70_polar (rs : RootScalar) (a a' p e : ℝ) (h : Spec.BoundOrbit rs a p e 0) (he1 : e < 1) (ha' : |a'| < 1)
    (hlt : |a| < |a'|) :
    Spec.BoundOrbit rs a' p e 0
    ∧ ∃ E L Q E' L' Q', constantsOfMotion rs a p e 0 = .ok (E, L, Q) ∧ constantsOfMotion rs a' p e 0 = .ok (E', L', Q')
      ∧ E' < E ∧ Q' < Q := by
  have hX : ∀ a, Spec.signedX a 0 = 0 := fun a => (signedX_eq_zero a 0).mpr rfl
  have h' : Spec.BoundOrbit rs a' p e 0 := by
    obtain ⟨h1, h2, h3, s, hs, hsp⟩ := id h
    obtain ⟨-, ⟨s1, s2, k1, k2, k3⟩, -⟩ := C64_spin rs |a| |a'| e (abs_nonneg a) hlt ha' h2.1 h2.2
    rw [hX] at hs
    obtain rfl : s = s1 := Except.ok.inj (hs.symm.trans k1)
    exact ⟨ha', h2, h3, s2, by rw [hX]; exact k2, k3.trans hsp⟩
  refine ⟨h', ?_⟩
  obtain ⟨b, hc, d⟩ := bound_std h
  obtain ⟨b', hc', d'⟩ := bound_std h'
  rw [hX] at b hc d b' hc' d'
  obtain ⟨E, L, Q, c, hs⟩ := constants_stable b (abs_nonneg a) he1 fun h1 => absurd h1 (lt_irrefl _)
  obtain ⟨E', L', Q', c', hs'⟩ := constants_stable b' (abs_nonneg a') he1 fun h1 => absurd h1 (lt_irrefl _)
  rw [hc] at c
  rw [hc'] at c'
  obtain ⟨o1, o2⟩ := (C70_orbits _ _ p e _ _ _ _ _ _ _ _ (abs_nonneg a) h.1 (abs_nonneg a') ha' h.2.1.1 he1 hs hs').2 rfl rfl hlt
  exact ⟨E, L, Q, E', L', Q', c, c', o1, o2⟩

/-- Non-vacuity of C70: from a retrograde to a prograde eccentric orbit, and polar orbits. -/
example (rs : RootScalar) : (∃ E L Q E' L' Q', constantsOfMotion rs (1 / 2) 13 (1 / 2) (-1) = .ok (E, L, Q)
      ∧ constantsOfMotion rs (-9 / 10) 13 (1 / 2) (-1) = .ok (E', L', Q') ∧ E' < E ∧ |L'| < |L|)
    ∧ ∃ E L Q E' L' Q', constantsOfMotion rs (1 / 10) 13 (1 / 2) 0 = .ok (E, L, Q)
      ∧ constantsOfMotion rs (-9 / 10) 13 (1 / 2) 0 = .ok (E', L', Q') ∧ E' < E ∧ Q' < Q := by
  constructor
  · have hb : Spec.BoundOrbit rs (1 / 2) 13 (1 / 2) (-1) :=
      C11_accepts_wide rs _ _ _ _ (by rw [abs_of_pos] <;> norm_num) (by norm_num) (by norm_num)
        (by norm_num) (by norm_num)
    exact (C70_equatorial rs (1 / 2) (-9 / 10) 13 (1 / 2) (-1) (-1) hb (by norm_num) (by norm_num) (by norm_num)
      (by rw [abs_of_neg] <;> norm_num) (by norm_num) (fun _ h => absurd h (by norm_num))
      (fun _ h => absurd h (by norm_num))).2
  · have hb : Spec.BoundOrbit rs (1 / 10) 13 (1 / 2) 0 :=
      C11_accepts_wide rs _ _ _ _ (by rw [abs_of_pos] <;> norm_num) (by norm_num) (by norm_num)
        (by norm_num) (by norm_num)
    exact (C70_polar rs (1 / 10) (-9 / 10) 13 (1 / 2) hb (by norm_num) (by rw [abs_of_neg] <;> norm_num)
      (by rw [abs_of_pos, abs_of_neg] <;> norm_num)).2

end KGP
