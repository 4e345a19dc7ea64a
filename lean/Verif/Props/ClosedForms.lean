import Mathlib.Analysis.SpecialFunctions.Pow.Real
import Verif.Props.KerrOrbits

/-!
# C51 — the numerical answers agree with the textbook closed forms

`separatrix` finds its answer with a bracketing root search.  For equatorial orbits two of its values
have classical closed forms, published before the code and independently of the polynomials it uses
(Bardeen, Press & Teukolsky 1972): the innermost stable circular orbit (`e = 0`) and the marginally
bound orbit (`e = 1`).
-/

namespace KGP

open Real

/-! ## Specification: the formulas of Bardeen, Press & Teukolsky (1972), in units of the mass -/

/-- eq. (2.21), first auxiliary function -/
noncomputable def Spec.bptZ1 (a : ℝ) : ℝ :=
  1 + (1 - a ^ 2) ^ (1 / 3 : ℝ) * ((1 + a) ^ (1 / 3 : ℝ) + (1 - a) ^ (1 / 3 : ℝ))

/-- eq. (2.21), second auxiliary function -/
noncomputable def Spec.bptZ2 (a : ℝ) : ℝ := √(3 * a ^ 2 + Spec.bptZ1 a ^ 2)

/-- eq. (2.21): innermost stable circular orbit; `σ = 1` prograde, `σ = -1` retrograde -/
noncomputable def Spec.isco (a σ : ℝ) : ℝ :=
  3 + Spec.bptZ2 a - σ * √((3 - Spec.bptZ1 a) * (3 + Spec.bptZ1 a + 2 * Spec.bptZ2 a))

/-- eq. (2.19): radius of the marginally bound circular orbit (the pericentre of the marginal parabolic
orbit) -/
noncomputable def Spec.marginallyBound (a σ : ℝ) : ℝ := 2 - σ * a + 2 * √(1 - σ * a)

/-! ## Algebra -/

/-- What the algebra needs from the two auxiliary functions. -/
lemma bpt_facts (a : ℝ) (ha : 0 ≤ a) (ha1 : a < 1) :
    1 < Spec.bptZ1 a ∧ Spec.bptZ1 a ≤ 3 ∧ (Spec.bptZ1 a - 1) ^ 3 = (1 - a ^ 2) * (3 * Spec.bptZ1 a - 1)
      ∧ 0 ≤ Spec.bptZ2 a ∧ Spec.bptZ2 a ^ 2 = 3 * a ^ 2 + Spec.bptZ1 a ^ 2 := by
  have hcube : ∀ t : ℝ, 0 ≤ t → (t ^ (1 / 3 : ℝ)) ^ 3 = t := fun t ht => by
    rw [← Real.rpow_natCast, ← Real.rpow_mul ht]; norm_num
  have hm : (1 - a ^ 2) ^ (1 / 3 : ℝ) = (1 + a) ^ (1 / 3 : ℝ) * (1 - a) ^ (1 / 3 : ℝ) := by
    rw [← Real.mul_rpow (by linarith) (by linarith)]; ring_nf
  have hu0 : 0 < (1 + a) ^ (1 / 3 : ℝ) := Real.rpow_pos_of_pos (by linarith) _
  have hv0 : 0 < (1 - a) ^ (1 / 3 : ℝ) := Real.rpow_pos_of_pos (by linarith) _
  have hu := hcube (1 + a) (by linarith)
  have hv := hcube (1 - a) (by linarith)
  have hz : Spec.bptZ2 a ^ 2 = 3 * a ^ 2 + Spec.bptZ1 a ^ 2 := Real.sq_sqrt (by positivity)
  have hz0 : 0 ≤ Spec.bptZ2 a := Real.sqrt_nonneg _
  refine ⟨?_, ?_, ?_, hz0, hz⟩
  · unfold Spec.bptZ1; rw [hm]
    have : 0 < (1 + a) ^ (1 / 3 : ℝ) * (1 - a) ^ (1 / 3 : ℝ)
      * ((1 + a) ^ (1 / 3 : ℝ) + (1 - a) ^ (1 / 3 : ℝ)) := by positivity
    linarith
  all_goals
    unfold Spec.bptZ1; rw [hm]
    generalize (1 + a) ^ (1 / 3 : ℝ) = u at *
    generalize (1 - a) ^ (1 / 3 : ℝ) = v at *
    have key : (1 + u * v * (u + v) - 1) ^ 3 = (1 - a ^ 2) * (3 * (1 + u * v * (u + v)) - 1) := by
      have h1 : (1 - a ^ 2) = (u * v) ^ 3 := by rw [mul_pow, hu, hv]; ring
      have h2 : 3 * (1 + u * v * (u + v)) - 1 = (u + v) ^ 3 := by linear_combination -hu - hv
      rw [h1, h2]; ring
  · have h0 : 0 < u * v * (u + v) := by positivity
    generalize u * v * (u + v) = z at *
    by_contra hc
    have : 0 ≤ a ^ 2 * (3 * (1 + z) - 1) := mul_nonneg (sq_nonneg a) (by linarith)
    have h3 : 0 < (1 + z) ^ 2 * (1 + z - 3) := mul_pos (by positivity) (by linarith)
    nlinarith
  · exact key

/-- From the facts: the ratio `w = Z1/Z2` parametrises everything. -/
lemma bpt_param {z y a : ℝ} (h1 : 1 < z) (h3 : z ≤ 3) (hc : (z - 1) ^ 3 = (1 - a ^ 2) * (3 * z - 1))
    (hy : 0 ≤ y) (hy2 : y ^ 2 = 3 * a ^ 2 + z ^ 2) :
    0 < y ∧ y ^ 2 * (3 - z) = 8 * a ^ 2 ∧ z ≤ y ∧ y ≤ 3 ∧ 0 ≤ (z + y) ^ 2 - 2 * y - 5
      ∧ 0 ≤ (z + y) ^ 2 - 18 * y + 27 := by
  have hzy : z ≤ y := abs_le_of_sq_le_sq' (by nlinarith [sq_nonneg a]) hy |>.2
  have hy0 : 0 < y := by linarith
  have hA : y ^ 2 * (3 * z - 1) = 8 * z ^ 2 := by rw [hy2]; linear_combination 3 * hc
  have hB : y ^ 2 * (3 - z) = 8 * a ^ 2 := by
    have : (3 * z - 1) * (y ^ 2 * (3 - z)) = (3 * z - 1) * (8 * a ^ 2) := by
      linear_combination (3 - z) * hA - 8 * hc
    exact mul_left_cancel₀ (by linarith) this
  have hy3 : y ≤ 3 := by
    have : y ^ 2 * (3 * z - 1) ≤ 3 ^ 2 * (3 * z - 1) := by rw [hA]; nlinarith
    have := le_of_mul_le_mul_right this (by linarith)
    exact abs_le_of_sq_le_sq' this (by norm_num) |>.2
  obtain ⟨t, ht⟩ : ∃ t, z = (1 / 2 + t) * y := ⟨z / y - 1 / 2, by field_simp; ring⟩
  have hw : (8 * (1 / 2 + t) ^ 2 + 1) = 3 * z := by
    have : y ^ 2 * (8 * (1 / 2 + t) ^ 2 + 1) = y ^ 2 * (3 * z) := by
      have : 8 * z ^ 2 = 8 * (1 / 2 + t) ^ 2 * y ^ 2 := by rw [ht]; ring
      linarith
    exact mul_left_cancel₀ (by positivity) this
  have ht1 : t ≤ 1 / 2 := by
    by_contra hcon
    nlinarith
  have ht0 : 0 ≤ t := by
    have h0 : 0 < 1 / 2 + t := by
      by_contra hcon
      have := mul_nonneg (by linarith : 0 ≤ -(1 / 2 + t)) hy
      linarith
    by_contra hcon
    nlinarith
  have hyt : (1 / 2 + t) * y = (8 * (1 / 2 + t) ^ 2 + 1) / 3 := by linarith
  have hpos : (0:ℝ) < (1 / 2 + t) ^ 2 := by positivity
  refine ⟨hy0, hB, hzy, hy3, ?_, ?_⟩
  · have : 0 ≤ (1 / 2 + t) ^ 2 * ((z + y) ^ 2 - 2 * y - 5) := by
      have e : (1 / 2 + t) ^ 2 * ((z + y) ^ 2 - 2 * y - 5)
          = ((1 + (1 / 2 + t)) * ((8 * (1 / 2 + t) ^ 2 + 1) / 3)) ^ 2
            - 2 * (1 / 2 + t) * ((8 * (1 / 2 + t) ^ 2 + 1) / 3) - 5 * (1 / 2 + t) ^ 2 := by
        rw [← hyt, ht]; ring
      rw [e]; ring_nf; nlinarith [pow_nonneg ht0 2, pow_nonneg ht0 3, pow_nonneg ht0 4, pow_nonneg ht0 5, pow_nonneg ht0 6]
    exact nonneg_of_mul_nonneg_right this hpos
  · have : 0 ≤ (1 / 2 + t) ^ 2 * ((z + y) ^ 2 - 18 * y + 27) := by
      have e : (1 / 2 + t) ^ 2 * ((z + y) ^ 2 - 18 * y + 27)
          = ((1 + (1 / 2 + t)) * ((8 * (1 / 2 + t) ^ 2 + 1) / 3)) ^ 2
            - 18 * (1 / 2 + t) * ((8 * (1 / 2 + t) ^ 2 + 1) / 3) + 27 * (1 / 2 + t) ^ 2 := by
        rw [← hyt, ht]; ring
      rw [e]; ring_nf; nlinarith [pow_nonneg ht0 2, pow_nonneg ht0 3, pow_nonneg ht0 4, pow_nonneg ht0 5, pow_nonneg ht0 6]
    exact nonneg_of_mul_nonneg_right this hpos

lemma isco_zero {z y a W p : ℝ} (hB : y ^ 2 * (3 - z) = 8 * a ^ 2) (hy2 : y ^ 2 = 3 * a ^ 2 + z ^ 2)
    (hW : W ^ 2 = (3 - z) * (3 + z + 2 * y)) (hp : p = 3 + y - W) : SEquatorial p a 0 = 0 := by
  have e1 : SEquatorial p a 0 = (p ^ 2 - 6 * p - 3 * a ^ 2) ^ 2 - 64 * a ^ 2 * p := by
    unfold SEquatorial; ring
  have e2 : p ^ 2 - 6 * p - 3 * a ^ 2 = 2 * y * (3 - z - W) := by
    rw [hp]; linear_combination hW + hy2
  have e3 : (3 - z - W) ^ 2 = 2 * (3 - z) * p := by rw [hp]; linear_combination hW
  rw [e1, e2, mul_pow, e3]; linear_combination 8 * p * hB

/-- **C51 (ISCO).** For every spin `0 ≤ a < 1` and whichever root finder is used, `separatrix(a, 0, ±1)` is
the innermost stable circular orbit of Bardeen, Press & Teukolsky. -/
theorem C51_isco (rs : RootScalar) (a : ℝ) (ha : 0 ≤ a) (ha1 : a < 1) :
    separatrix rs a 0 1 = .ok (Spec.isco a 1) ∧ separatrix rs a 0 (-1) = .ok (Spec.isco a (-1)) := by
  obtain ⟨h1, h3, hc, hy, hy2⟩ := bpt_facts a ha ha1
  unfold Spec.isco
  generalize Spec.bptZ1 a = z at *
  generalize Spec.bptZ2 a = y at *
  obtain ⟨hy0, hB, hzy, hy3, hm, hp⟩ := bpt_param h1 h3 hc hy hy2
  have hW0 := Real.sqrt_nonneg ((3 - z) * (3 + z + 2 * y))
  have hW := Real.sq_sqrt (mul_nonneg (by linarith : 0 ≤ 3 - z) (by linarith : 0 ≤ 3 + z + 2 * y))
  generalize √((3 - z) * (3 + z + 2 * y)) = W at *
  have hz1 := isco_zero hB hy2 hW rfl
  have hz2 := isco_zero (W := -W) hB hy2 (by rw [← hW]; ring) rfl
  have h0 : a = 0 → y = 3 ∧ W = 0 := by
    intro h
    rw [h] at hB hy2
    have hz : z = 3 := by
      have : y ^ 2 * (3 - z) = 0 := by linarith
      rcases mul_eq_zero.mp this with h | h
      · exact absurd h (by positivity)
      · linarith
    rw [hz] at hy2 hW
    refine ⟨?_, ?_⟩
    · have : (y - 3) * (y + 3) = 0 := by linarith
      rcases mul_eq_zero.mp this with h | h <;> linarith
    · exact pow_eq_zero_iff two_ne_zero |>.mp (by linarith)
  have hC := C14_consistency
  refine ⟨(C15_unique a 0 1 ha ha1 le_rfl zero_le_one (by norm_num) le_rfl).2 _ ?_ rs,
    (C15_unique a 0 (-1) ha ha1 le_rfl zero_le_one le_rfl (by norm_num)).2 _ ?_ rs⟩
  · have hWle : W ≤ 2 + y := abs_le_of_sq_le_sq' (by rw [hW]; nlinarith) (by linarith) |>.2
    refine ⟨fun h => ?_, fun _ h => absurd h (by norm_num), fun _ _ => ⟨?_, by linarith, by linarith⟩,
      fun _ h => absurd h (by norm_num), fun _ => ?_, fun _ _ h => absurd h (by norm_num),
      fun _ _ h => absurd h (by norm_num)⟩
    · obtain ⟨e1, e2⟩ := h0 h; rw [e1, e2]; norm_num
    · rw [one_mul]; exact hz1
    · rw [(hC _ a 0 1).2.1, one_mul, hz1, mul_zero]
  · have hWle : W ≤ 6 - y := abs_le_of_sq_le_sq' (by rw [hW]; nlinarith) (by linarith) |>.2
    have hWge : 3 - y ≤ W := abs_le_of_sq_le_sq' (by rw [hW]; nlinarith) hW0 |>.2
    refine ⟨fun h => ?_, fun _ h => absurd h (by norm_num), fun _ h => absurd h (by norm_num),
      fun _ _ => ⟨?_, by linarith, ?_⟩, fun _ => ?_, fun _ h => absurd h (by norm_num),
      fun _ h => absurd h (by norm_num)⟩
    · obtain ⟨e1, e2⟩ := h0 h; rw [e1, e2]; norm_num
    · rw [neg_one_mul]; exact hz2
    · rw [add_zero, add_zero, Real.sqrt_one]; linarith
    · rw [(hC _ a 0 0).2.2.1, neg_one_mul, hz2, mul_zero]

/-- **C51 (marginally bound orbit).** `separatrix(a, 1, ±1)` is twice the marginally bound radius of Bardeen,
Press & Teukolsky (a parabolic orbit has pericentre `p / 2`). -/
theorem C51_marginally_bound (rs : RootScalar) (a : ℝ) (ha : 0 ≤ a) (ha1 : a < 1) :
    separatrix rs a 1 1 = .ok (2 * Spec.marginallyBound a 1)
      ∧ separatrix rs a 1 (-1) = .ok (2 * Spec.marginallyBound a (-1)) := by
  have hC := C14_consistency
  unfold Spec.marginallyBound
  refine ⟨(C15_unique a 1 1 ha ha1 zero_le_one le_rfl (by norm_num) le_rfl).2 _ ?_ rs,
    (C15_unique a 1 (-1) ha ha1 zero_le_one le_rfl le_rfl (by norm_num)).2 _ ?_ rs⟩
  · have hy0 := Real.sqrt_nonneg (1 - 1 * a)
    have hy2 := Real.sq_sqrt (by linarith : 0 ≤ 1 - 1 * a)
    generalize √(1 - 1 * a) = y at *
    have haa : a = 1 - y ^ 2 := by linarith
    have hy1 : y ≤ 1 := by nlinarith
    have hz : SEquatorial (2 * (2 - 1 * a + 2 * y)) a 1 = 0 := by
      unfold SEquatorial; rw [haa]; ring
    refine ⟨fun h => ?_, fun _ h => absurd h (by norm_num), fun _ _ => ⟨hz, by nlinarith, by nlinarith⟩,
      fun _ h => absurd h (by norm_num), fun _ => ?_, fun _ _ h => absurd h (by norm_num),
      fun _ _ h => absurd h (by norm_num)⟩
    · have : y = 1 := by nlinarith
      rw [h, this]; norm_num
    · rw [(hC _ a 1 1).2.1, hz, mul_zero]
  · have hy0 := Real.sqrt_nonneg (1 - -1 * a)
    have hy2 := Real.sq_sqrt (by linarith : 0 ≤ 1 - -1 * a)
    have hle : √(1 - -1 * a) ≤ √(1 + 1) := Real.sqrt_le_sqrt (by linarith)
    have hs2 := Real.sq_sqrt (by norm_num : (0:ℝ) ≤ 1 + 1)
    generalize √(1 - -1 * a) = y at *
    have haa : a = y ^ 2 - 1 := by linarith
    have hy1 : 1 ≤ y := by nlinarith
    have hz : SEquatorial (2 * (2 - -1 * a + 2 * y)) a 1 = 0 := by
      unfold SEquatorial; rw [haa]; ring
    refine ⟨fun h => ?_, fun _ h => absurd h (by norm_num), fun _ h => absurd h (by norm_num),
      fun _ _ => ⟨hz, by nlinarith, by nlinarith⟩, fun _ => ?_, fun _ h => absurd h (by norm_num),
      fun _ h => absurd h (by norm_num)⟩
    · have : y = 1 := by nlinarith
      rw [h, this]; norm_num
    · rw [(hC _ a 1 0).2.2.1, hz, mul_zero]

/-! ## Circular equatorial orbits -/

/-- eq. (2.12): energy of the circular equatorial orbit of radius `r` -/
noncomputable def Spec.circularE (a σ r : ℝ) : ℝ :=
  (r ^ 2 - 2 * r + σ * a * √r) / (r * √(r ^ 2 - 3 * r + 2 * σ * a * √r))

/-- eq. (2.13): angular momentum of the circular equatorial orbit of radius `r` -/
noncomputable def Spec.circularL (a σ r : ℝ) : ℝ :=
  σ * √r * (r ^ 2 - 2 * σ * a * √r + a ^ 2) / (r * √(r ^ 2 - 3 * r + 2 * σ * a * √r))

/-- eq. (2.16): Kepler's law for circular equatorial orbits -/
noncomputable def Spec.keplerOmega (a σ r : ℝ) : ℝ := σ / (r * √r + σ * a)

/-- Squared ratio of the radial epicyclic frequency to the orbital frequency (Okazaki, Kato & Fukue 1987) -/
noncomputable def Spec.epicyclicR (a σ r : ℝ) : ℝ :=
  1 - 6 / r + 8 * σ * a / (r * √r) - 3 * a ^ 2 / r ^ 2

/-- Squared ratio of the vertical epicyclic frequency to the orbital frequency (Kato 1990) -/
noncomputable def Spec.epicyclicTheta (a σ r : ℝ) : ℝ :=
  1 - 4 * σ * a / (r * √r) + 3 * a ^ 2 / r ^ 2

/-- A double root of the equatorial radial potential: `c = σ √r`, `P = E (r² + a²) - a L`. -/
lemma circular_core {a r E L b P D X : ℝ} (hb : b = 1 - E ^ 2) (hD : D = r ^ 2 - 2 * r + a ^ 2)
    (hX : X = L - a * E) (hP : P = E * (r ^ 2 + a ^ 2) - a * L) (hr : r ≠ 0)
    (h0 : P ^ 2 = D * (r ^ 2 + X ^ 2))
    (h1 : -4 * b * r ^ 3 + 6 * r ^ 2 - 2 * (a ^ 2 * b + L ^ 2) * r + 2 * X ^ 2 = 0) :
    (a * P + D * X) ^ 2 = r * P ^ 2 := by
  have h1' : 4 * E * r * P = (2 * r - 2) * (r ^ 2 + X ^ 2) + 2 * r * D := by
    rw [hP, hD, hX]; rw [hb, hX] at h1; linear_combination h1
  have hE : E * r ^ 2 = P + a * X := by rw [hP, hX]; ring
  have : r * ((a * P + D * X) ^ 2 - r * P ^ 2) = 0 := by
    have k1 : 4 * (P + a * X) * P * D = ((2 * r - 2) * (r ^ 2 + X ^ 2) + 2 * r * D) * r * D := by
      rw [← h1', ← hE]; ring
    have k2 : 2 * ((a * P + D * X) ^ 2 - r * P ^ 2) = 0 := by
      have k3 : (2 * r - 2) * r * P ^ 2 = (2 * r - 2) * r * (D * (r ^ 2 + X ^ 2)) := by rw [h0]
      have k4 : 2 * D * P ^ 2 = 2 * D * (D * (r ^ 2 + X ^ 2)) := by rw [h0]
      have k5 : P ^ 2 * (2 * D - (2 * r ^ 2 - 2 * r) + 2 * r - 2 * a ^ 2) = 0 := by rw [hD]; ring
      linear_combination k1 - k3 - k4 - k5
    rw [show (a * P + D * X) ^ 2 - r * P ^ 2 = 0 by linarith, mul_zero]
  exact sub_eq_zero.mp ((mul_eq_zero.mp this).resolve_left hr)

/-- The constants and the rates of a circular equatorial orbit. -/
lemma circular_algebra {a r E L σ s : ℝ} (hσ : σ ^ 2 = 1) (hr : 1 < r) (hs : 0 < s)
    (hs2 : s ^ 2 = r) (hD : 0 < r ^ 2 - 2 * r + a ^ 2) (hL : 0 < σ * L)
    (hP : 0 < E * (r ^ 2 + a ^ 2) - a * L)
    (h0 : (E * (r ^ 2 + a ^ 2) - a * L) ^ 2 = (r ^ 2 - 2 * r + a ^ 2) * (r ^ 2 + (L - a * E) ^ 2))
    (h1 : -4 * (1 - E ^ 2) * r ^ 3 + 6 * r ^ 2 - 2 * (a ^ 2 * (1 - E ^ 2) + L ^ 2) * r
      + 2 * (L - a * E) ^ 2 = 0) :
    0 < r ^ 2 - 3 * r + 2 * σ * a * s
    ∧ E = (r ^ 2 - 2 * r + σ * a * s) / (r * √(r ^ 2 - 3 * r + 2 * σ * a * s))
    ∧ L = σ * s * (r ^ 2 - 2 * σ * a * s + a ^ 2) / (r * √(r ^ 2 - 3 * r + 2 * σ * a * s))
    ∧ (E * (r ^ 2 + a ^ 2) - a * L) / (r ^ 2 - 2 * r + a ^ 2)
        = r / √(r ^ 2 - 3 * r + 2 * σ * a * s) := by
  have hr0 : r ≠ 0 := by positivity
  have hcore := circular_core rfl rfl rfl rfl hr0 h0 h1
  obtain ⟨D, hDd⟩ : ∃ D, D = r ^ 2 - 2 * r + a ^ 2 := ⟨_, rfl⟩
  obtain ⟨P, hPd⟩ : ∃ P, P = E * (r ^ 2 + a ^ 2) - a * L := ⟨_, rfl⟩
  rw [← hDd] at hD h0 hcore ⊢
  rw [← hPd] at hP h0 hcore ⊢
  have hEr : E * r ^ 2 = P + a * (L - a * E) := by rw [hPd]; ring
  -- which square root
  have hτ : ∃ τ : ℝ, τ ^ 2 = 1 ∧ D * (L - a * E) = P * (τ * s - a) := by
    have : (a * P + D * (L - a * E) - s * P) * (a * P + D * (L - a * E) + s * P) = 0 := by
      rw [← hs2] at hcore; linear_combination hcore
    rcases mul_eq_zero.mp this with h | h
    · exact ⟨1, by norm_num, by linear_combination h⟩
    · exact ⟨-1, by norm_num, by linear_combination h⟩
  obtain ⟨τ, hτ2, hX⟩ := hτ
  have hLr : D * L * r ^ 2 = P * (τ * s) * (r ^ 2 - 2 * τ * a * s + a ^ 2) := by
    have k1 : D * L * r ^ 2 = (D * (L - a * E)) * r ^ 2 + a * (D * (E * r ^ 2)) := by ring
    have k2 : D * (E * r ^ 2) = D * P + a * (D * (L - a * E)) := by rw [hEr]; ring
    rw [k1, k2, hX, hDd]
    linear_combination (2 * P * a * s ^ 2) * hτ2 + 2 * P * a * hs2
  have hpos : 0 < r ^ 2 - 2 * τ * a * s + a ^ 2 := by
    have : 0 < r ^ 2 - r := by nlinarith
    nlinarith [sq_nonneg (a - τ * s)]
  have hτσ : τ = σ := by
    have hts : 0 < σ * τ := by
      have h2 : 0 < D * (σ * L) * r ^ 2 := by positivity
      have h3 : D * (σ * L) * r ^ 2 = (σ * τ) * (P * s * (r ^ 2 - 2 * τ * a * s + a ^ 2)) := by
        linear_combination σ * hLr
      rw [h3] at h2
      exact (pos_iff_pos_of_mul_pos h2).mpr (by positivity)
    have : (σ * τ) ^ 2 = 1 := by rw [mul_pow, hσ, hτ2]; norm_num
    have h1' : σ * τ = 1 := by nlinarith
    calc τ = σ ^ 2 * τ := by rw [hσ, one_mul]
      _ = σ * (σ * τ) := by ring
      _ = σ := by rw [h1', mul_one]
  subst hτσ
  have hN : P ^ 2 * (r ^ 2 - 3 * r + 2 * τ * a * s) = (D * r) ^ 2 := by
    have k : D * P ^ 2 = (D * r) ^ 2 + (D * (L - a * E)) ^ 2 := by rw [h0]; ring
    rw [hX] at k
    have : r ^ 2 - 3 * r + 2 * τ * a * s = D - (τ * s - a) ^ 2 := by
      rw [hDd]; linear_combination s ^ 2 * hτ2 + hs2
    rw [this]; linear_combination k
  have hNpos : 0 < r ^ 2 - 3 * r + 2 * τ * a * s := by
    have : 0 < P ^ 2 * (r ^ 2 - 3 * r + 2 * τ * a * s) := by rw [hN]; positivity
    exact (pos_iff_pos_of_mul_pos this).mp (by positivity)
  have hn := Real.sqrt_pos.mpr hNpos
  have hn2 := Real.sq_sqrt hNpos.le
  generalize √(r ^ 2 - 3 * r + 2 * τ * a * s) = n at *
  have hPn : P * n = D * r := by
    have : (P * n) ^ 2 = (D * r) ^ 2 := by rw [mul_pow, hn2, hN]
    exact (sq_eq_sq₀ (by positivity) (by positivity)).mp this
  refine ⟨hNpos, ?_, ?_, ?_⟩
  · rw [eq_div_iff (by positivity)]
    have k2 : D * (E * r ^ 2) = P * (r ^ 2 - 2 * r + τ * a * s) := by
      have : D * (E * r ^ 2) = D * P + a * (D * (L - a * E)) := by rw [hEr]; ring
      rw [this, hX, hDd]; ring
    have : D * r * (E * (r * n)) = D * r * (r ^ 2 - 2 * r + τ * a * s) := by
      linear_combination n * k2 + (r ^ 2 - 2 * r + τ * a * s) * hPn
    exact mul_left_cancel₀ (by positivity) this
  · rw [eq_div_iff (by positivity)]
    have : D * r * (L * (r * n)) = D * r * (τ * s * (r ^ 2 - 2 * τ * a * s + a ^ 2)) := by
      linear_combination n * hLr + (τ * s * (r ^ 2 - 2 * τ * a * s + a ^ 2)) * hPn
    exact mul_left_cancel₀ (by positivity) this
  · rw [div_eq_div_iff hD.ne' hn.ne']; linarith

lemma circular_divisors {a p : ℝ} (ha : 0 ≤ a) (hp0 : p ≠ 0) (h2 : p ≠ 2)
    (h3 : p * (p - 3) ^ 2 ≠ 4 * a ^ 2) : Spec.DivisorsNonzero a p 0 1 := by
  have hsx : Spec.signedX a 1 = 1 := by unfold Spec.signedX; rw [if_neg (not_lt.mpr ha)]
  unfold Spec.DivisorsNonzero
  rw [hsx, abs_of_nonneg ha]
  simp only [if_true, coefficients, coefficientsDerivative]
  norm_num
  refine ⟨?_, hp0, sub_ne_zero.mpr h2⟩
  have e : ((p ^ 4 + a ^ 2 * (p * (p + 2))) * (2 * (p - 1)) - p * (p - 2) * (4 * p ^ 3 + 2 * a ^ 2 * (p + 1))) ^ 2
      + 4 * ((p ^ 4 + a ^ 2 * (p * (p + 2))) * (2 * a) - 2 * a * p * (4 * p ^ 3 + 2 * a ^ 2 * (p + 1)))
        * (2 * a * p * (2 * (p - 1)) - p * (p - 2) * (2 * a))
      = 4 * p ^ 7 * (p * (p - 3) ^ 2 - 4 * a ^ 2) := by ring
  rw [e]
  exact mul_ne_zero (by positivity) (sub_ne_zero.mpr h3)

/-- What the library computes for an accepted circular equatorial orbit. -/
lemma circular_data {rs : RootScalar} {a p σ : ℝ} (hσ : σ = 1 ∨ σ = -1) (ha : 0 ≤ a)
    (h : Spec.BoundOrbit rs a p 0 σ) (hp : σ = 1 → p ≠ 2 ∧ p * (p - 3) ^ 2 ≠ 4 * a ^ 2) :
    ∃ E L r3 r4, constantsOfMotion rs a p 0 σ = .ok (E, L, 0)
      ∧ stableRadialRoots rs a p 0 σ = .ok (p, p, r3, r4) ∧ Spec.RadialRoots a E L 0 p p r3 r4
      ∧ 0 < σ * L ∧ 0 < E * (p ^ 2 + a ^ 2) - a * L ∧ 1 < p ∧ 0 < p ^ 2 - 2 * p + a ^ 2
      ∧ (0 < σ → p ≤ 4 → Spec.DivisorsNonzero a p 0 σ) := by
  have hσ0 : σ ≠ 0 := by rcases hσ with h | h <;> rw [h] <;> norm_num
  have hsg : Real.sign σ = σ := by
    rcases hσ with h | h <;> rw [h]
    · exact Real.sign_one
    · exact Real.sign_of_neg (by norm_num)
  have hQ : ∀ {E L Q}, constantsOfMotion rs a p 0 σ = .ok (E, L, Q) → Q = 0 := by
    intro E L Q hc
    have := C05_inclination_root rs a p 0 σ E L Q hσ0 hc
    have hz : 1 - σ ^ 2 = 0 := by rcases hσ with h | h <;> rw [h] <;> norm_num
    rw [hz] at this
    simpa [Spec.Zpol] using this
  have ha1 : a < 1 := by have := h.1; rwa [abs_of_nonneg ha] at this
  have hD : ∀ {r3}, 1 + √(1 - a ^ 2) ≤ r3 → r3 < p → 1 < p ∧ 0 < p ^ 2 - 2 * p + a ^ 2 := by
    intro r3 h1 h2
    have k0 := Real.sqrt_nonneg (1 - a ^ 2)
    have k2 := Real.sq_sqrt (show 0 ≤ 1 - a ^ 2 by nlinarith)
    refine ⟨by linarith, by nlinarith⟩
  rcases eq_or_lt_of_le ha with h0 | h0
  · subst h0
    obtain ⟨E, L, Q, r1, r2, r3, r4, hc, hr, hb⟩ := schwarzschild_boundGeodesic rs p 0 σ h zero_ne_one hσ0
    obtain ⟨E', L', Q', hc', hE, hE1, h1, h2, -, -⟩ := C07_turning rs p 0 σ h zero_ne_one
    have hcc := Except.ok.inj (hc.symm.trans hc')
    simp only [Prod.mk.injEq] at hcc
    obtain ⟨rfl, rfl, rfl⟩ := hcc
    obtain rfl := hQ hc
    have e12 : r1 = p ∧ r2 = p := by
      unfold stableRadialRoots at hr
      simp only [constantsOr, hc, bind_ok] at hr
      unfold stableRadialRootsCore at hr
      have := Except.ok.inj hr
      simp only [Prod.mk.injEq] at this
      refine ⟨?_, ?_⟩
      · rw [← this.1]; norm_num
      · rw [← this.2.1]; norm_num
    rw [e12.1, e12.2] at hr hb
    obtain ⟨p1, pD⟩ := hD hb.horizon.le hb.r32
    refine ⟨E, L, r3, r4, hc, hr, hb.roots, ?_, ?_, p1, pD, ?_⟩
    · rcases hσ with h | h
      · rw [h]; linarith [h1 (by rw [h]; norm_num)]
      · rw [h]; linarith [h2 (by rw [h]; norm_num)]
    · have : 0 < E * (p ^ 2 + 0 ^ 2) := by positivity
      linarith
    · intro hs _
      rcases hσ with h | h
      · rw [h]; exact circular_divisors le_rfl (by linarith) (hp h).1 (hp h).2
      · rw [h] at hs; norm_num at hs
  · have hdiv : 0 < σ → p ≤ 4 → p ≠ 0 → Spec.DivisorsNonzero a p 0 σ := by
      intro hs _ hp0
      rcases hσ with h | h
      · rw [h]; exact circular_divisors ha hp0 (hp h).1 (hp h).2
      · rw [h] at hs; norm_num at hs
    have hp0 : p ≠ 0 := by
      obtain ⟨-, -, -, -, -, -, -, s, hv, hsp⟩ := bound_value h h0 zero_ne_one
      rcases hσ with hh | hh
      · obtain ⟨-, h2, -⟩ := hv.prograde h0.ne' hh
        linarith
      · obtain ⟨-, h2, -⟩ := hv.retrograde h0.ne' hh
        linarith
    obtain ⟨E, L, Q, r1, r2, r3, r4, hc, hr, hE, hE1, hL, -, e1, e2, hR, h32, -, -, h3, -, hf, -⟩ :=
      C04_boundGeodesic rs a p 0 σ h h0 zero_ne_one hσ0 (fun h1 h2 => hdiv h1 h2 hp0)
    obtain rfl := hQ hc
    rw [sub_zero, div_one] at e1
    rw [add_zero, div_one] at e2 hf
    rw [e1, e2] at hr hR
    rw [e2] at h32
    obtain ⟨p1, pD⟩ := hD h3 h32
    rw [hsg] at hL
    exact ⟨E, L, r3, r4, hc, hr, hR, hL, by linarith, p1, pD, fun h1 h2 => hdiv h1 h2 hp0⟩

lemma circular_eqs {a E L p r3 r4 : ℝ} (hR : Spec.RadialRoots a E L 0 p p r3 r4) :
    (E * (p ^ 2 + a ^ 2) - a * L) ^ 2 = (p ^ 2 - 2 * p + a ^ 2) * (p ^ 2 + (L - a * E) ^ 2)
    ∧ -4 * (1 - E ^ 2) * p ^ 3 + 6 * p ^ 2 - 2 * (a ^ 2 * (1 - E ^ 2) + L ^ 2) * p
      + 2 * (L - a * E) ^ 2 = 0
    ∧ (1 - E ^ 2) * (p - r3) * (p - r4)
        = 6 * (1 - E ^ 2) * p ^ 2 - 6 * p + a ^ 2 * (1 - E ^ 2) + L ^ 2 := by
  obtain ⟨v1, v2, v3, v4⟩ := RadialRoots.vieta hR
  refine ⟨?_, ?_, ?_⟩
  · have := hR p
    rw [sub_self, mul_zero, zero_mul, zero_mul] at this
    unfold Spec.R Spec.Delta at this
    linear_combination this
  · linear_combination -3 * p ^ 2 * v1 + 2 * p * v2 - v3
  · linear_combination v2 - 3 * p * v1

/-- **C51 (constants of circular equatorial orbits).** For every accepted circular equatorial orbit —
prograde `σ = 1` or retrograde `σ = -1` — `constants_of_motion(a, p, 0, σ)` returns the energy and angular
momentum of Bardeen, Press & Teukolsky and a zero Carter constant.  (The two radii excluded for prograde
orbits are those where the code divides by zero, see C04.) -/
theorem C51_circular_constants (rs : RootScalar) (a p σ : ℝ) (hσ : σ = 1 ∨ σ = -1) (ha : 0 ≤ a)
    (h : Spec.BoundOrbit rs a p 0 σ) (hp : σ = 1 → p ≠ 2 ∧ p * (p - 3) ^ 2 ≠ 4 * a ^ 2) :
    constantsOfMotion rs a p 0 σ = .ok (Spec.circularE a σ p, Spec.circularL a σ p, 0)
      ∧ 0 < p ^ 2 - 3 * p + 2 * σ * a * √p := by
  obtain ⟨E, L, r3, r4, hc, -, hR, hL, hP, hp1, hD, -⟩ := circular_data hσ ha h hp
  obtain ⟨h0, h1, -⟩ := circular_eqs hR
  have hσ2 : σ ^ 2 = 1 := by rcases hσ with h | h <;> rw [h] <;> norm_num
  obtain ⟨hN, hE, hL', -⟩ := circular_algebra hσ2 hp1 (Real.sqrt_pos.mpr (by linarith))
    (Real.sq_sqrt (by linarith)) hD hL hP h0 h1
  rw [hc, hE, hL']
  exact ⟨rfl, hN⟩

/-- A function with constant derivative that stays within a bounded distance of a straight line has that
line's slope. -/
lemma slope_unique {f : ℝ → ℝ} {A G q B : ℝ} (hf : ∀ y, HasDerivAt f A y)
    (hB : ∀ y, |f y - (q + G * y)| ≤ B) : G = A := by
  have hlin : ∀ y, f y = f 0 + A * y := by
    have hd : ∀ y, HasDerivAt (fun y => f y - A * y) 0 y := fun y =>
      ((hf y).sub ((hasDerivAt_id y).const_mul A)).congr_deriv (by simp)
    intro y
    have := is_const_of_deriv_eq_zero (fun y => (hd y).differentiableAt) (fun y => (hd y).deriv) y 0
    simp only [mul_zero, sub_zero] at this
    linarith
  by_contra hne
  have hk : A - G ≠ 0 := fun h => hne (by linarith)
  have h0 := abs_le.mp (hB 0)
  have h1 := abs_le.mp (hB ((2 * B + 1) / (A - G)))
  rw [hlin] at h1
  have e : (A - G) * ((2 * B + 1) / (A - G)) = 2 * B + 1 := by field_simp
  generalize (2 * B + 1) / (A - G) = y at *
  linarith [h0.1, h1.2]

/-- The epicyclic identities. -/
lemma epicyclic_algebra {a r E L σ s n : ℝ} (hσ : σ = 1 ∨ σ = -1) (hs : 0 < s)
    (hs2 : s ^ 2 = r) (hn : 0 < n) (hn2 : n ^ 2 = r ^ 2 - 3 * r + 2 * σ * a * s)
    (hE : E = (r ^ 2 - 2 * r + σ * a * s) / (r * n))
    (hL : L = σ * s * (r ^ 2 - 2 * σ * a * s + a ^ 2) / (r * n)) :
    6 * (1 - E ^ 2) * r ^ 2 - 6 * r + a ^ 2 * (1 - E ^ 2) + L ^ 2
      = (s * (r / n)) ^ 2 * (1 - 6 / r + 8 * σ * a / (r * s) - 3 * a ^ 2 / r ^ 2)
    ∧ a ^ 2 * (1 - E ^ 2) + L ^ 2
      = (s * (r / n)) ^ 2 * (1 - 4 * σ * a / (r * s) + 3 * a ^ 2 / r ^ 2) := by
  subst hs2
  have hE2 : E ^ 2 = (s ^ 3 - 2 * s + σ * a) ^ 2 / (s ^ 2 * n ^ 2) := by
    rw [hE, div_pow, div_eq_div_iff (by positivity) (by positivity)]; ring
  have hL2 : L ^ 2 = (s ^ 4 - 2 * σ * a * s + a ^ 2) ^ 2 / (s ^ 2 * n ^ 2) := by
    rw [hL, div_pow, div_eq_div_iff (by positivity) (by positivity)]
    rcases hσ with h | h <;> rw [h] <;> ring
  rw [hE2, hL2]
  have e1 : (s * (s ^ 2 / n)) ^ 2 = s ^ 6 / n ^ 2 := by rw [mul_pow, div_pow]; ring
  have hN : n ^ 2 ≠ 0 := by positivity
  rw [e1]
  generalize n ^ 2 = N at *
  rcases hσ with rfl | rfl <;> constructor <;> field_simp <;> rw [hn2] <;> ring

set_option maxHeartbeats 1600000 in
/-- **C51 (Kepler's law and the epicyclic frequencies).** For every accepted circular equatorial orbit,
`fundamental_frequencies(a, p, 0, σ)` returns the Kepler frequency as azimuthal frequency, and the textbook
epicyclic frequencies as radial and polar frequencies.  (Prograde orbits for which `r₊` is a root of the radial
potential are excluded: there the code divides zero by zero.) -/
theorem C51_circular_frequencies (rs : RootScalar) (a p σ : ℝ) (hσ : σ = 1 ∨ σ = -1) (ha : 0 ≤ a)
    (h : Spec.BoundOrbit rs a p 0 σ) (hp : σ = 1 → p ≠ 2 ∧ p * (p - 3) ^ 2 ≠ 4 * a ^ 2)
    (hne : σ = 1 → Spec.circularE a σ p * ((1 + √(1 - a ^ 2)) ^ 2 + a ^ 2) ≠ a * Spec.circularL a σ p) :
    fundamentalFrequencies rs a p 0 σ
        = .ok (|Spec.keplerOmega a σ p| * √(Spec.epicyclicR a σ p),
            |Spec.keplerOmega a σ p| * √(Spec.epicyclicTheta a σ p), Spec.keplerOmega a σ p)
      ∧ 0 < Spec.epicyclicR a σ p ∧ 0 < Spec.epicyclicTheta a σ p := by
  have hσ0 : σ ≠ 0 := by rcases hσ with h | h <;> rw [h] <;> norm_num
  have hσ2 : σ ^ 2 = 1 := by rcases hσ with h | h <;> rw [h] <;> norm_num
  have hCC := (C51_circular_constants rs a p σ hσ ha h hp).1
  obtain ⟨E, L, r3, r4, hc, hr, hR, hL, hP, hp1, hD, hdiv⟩ := circular_data hσ ha h hp
  have hEL := Except.ok.inj (hc.symm.trans hCC)
  simp only [Prod.mk.injEq] at hEL
  obtain ⟨q, hq⟩ : ∃ q : Phases, q = ⟨0, 0, 0, 0⟩ := ⟨_, rfl⟩
  obtain ⟨T, m, E', L', Q', r1', r2', r3', r4', hT, hm, hc', hr', hb, -⟩ :=
    orbit_hyps q h ha zero_ne_one hσ0 hdiv (by
      rcases hσ with hh | hh
      · right
        intro E1 L1 Q1 h1
        have := Except.ok.inj (h1.symm.trans hCC)
        simp only [Prod.mk.injEq] at this
        rw [this.1, this.2.1]
        exact hne hh
      · left; rw [hh]; norm_num)
  have hcc := Except.ok.inj (hc.symm.trans hc')
  simp only [Prod.mk.injEq] at hcc
  obtain ⟨rfl, rfl, rfl⟩ := hcc
  have hrr := Except.ok.inj (hr.symm.trans hr')
  simp only [Prod.mk.injEq] at hrr
  obtain ⟨rfl, rfl, rfl, rfl⟩ := hrr
  obtain ⟨h0, h1, h2⟩ := circular_eqs hR
  have hs := Real.sqrt_pos.mpr (by linarith : 0 < p)
  have hs2 := Real.sq_sqrt (by linarith : 0 ≤ p)
  obtain ⟨hN, hE1, hL1, hPD⟩ := circular_algebra hσ2 hp1 hs hs2 hD hL hP h0 h1
  have hn := Real.sqrt_pos.mpr hN
  obtain ⟨k1, k2⟩ := epicyclic_algebra hσ hs hs2 hn (Real.sq_sqrt hN.le) hE1 hL1
  -- the orbit is circular and equatorial
  have hx2 : 1 - σ ^ 2 = 0 := by rw [hσ2, sub_self]
  have hTr : ∀ y, T.r y = p := by
    intro y
    obtain ⟨c1, c2⟩ := (C20_radial ha hT hm hc hr hb).1 y
    rw [add_zero, div_one] at c1
    rw [sub_zero, div_one] at c2
    exact le_antisymm c2 c1
  have hTth : ∀ y, T.theta y = π / 2 := by
    intro y
    obtain ⟨c1, c2⟩ := (C20_polar ha hT hm hc hr hb).1 y
    rw [hx2, Real.sqrt_zero, Real.arccos_zero] at c1 c2
    linarith
  obtain ⟨B, hB⟩ := C25_secular ha hT hm hc hr hb
  have hder : ∀ y, HasDerivAt T.t (Spec.dtdlam a E L p (π / 2)) y
      ∧ HasDerivAt T.phi (Spec.dphidlam a E L p (π / 2)) y := by
    intro y
    have := C22_time_azimuth ha hT hm hc hr hb y
    rwa [hTr, hTth] at this
  have hG := slope_unique (fun y => (hder y).1) (fun y => (hB y).1)
  have hF := slope_unique (fun y => (hder y).2) (fun y => (hB y).2)
  -- the radial and polar frequencies
  obtain ⟨m', zm, zp, D⟩ := stableData_of ha hT hc hr
  obtain rfl := D.mino_eq hm
  have hUr : m'.upsilonR = √((1 - E ^ 2) * (p - r3) * (p - r4)) := by
    rw [D.upsilonR, rFrequencyCore_eq (BoundGeodesic.config hb)]
    unfold mR
    rw [sub_self, zero_mul, zero_div, ellipk_zero]
    field_simp
  have hL0 : 0 < |L| := abs_pos.mpr hb.nonpolar
  have hUt : m'.upsilonTheta = √(a ^ 2 * (1 - E ^ 2) + L ^ 2) := by
    have hz : zm = 0 := by rw [D.zm_eq, hx2]
    have hmT : mT a zm zp = 0 := by unfold mT; rw [hz, zero_div, ite_self]
    rw [D.upsilonTheta hb.energy hb.nonpolar, hmT, ellipk_zero, polarW, hz, e0zpOf]
    rw [sub_zero, mul_one, mul_one, Real.sqrt_div' _ (sq_nonneg L), Real.sqrt_sq_eq_abs]
    field_simp
  rw [h2, k1] at hUr
  rw [k2] at hUt
  have hUr0 := (C20_radial ha hT hm hc hr hb).2.2.2.1
  have hUt0 := (C20_polar ha hT hm hc hr hb).2.2.2.1
  have hfund := (C25_fundamental rs a p 0 σ m' hm).1
  -- the rates of `t` and `φ`
  have hDel : Spec.Delta a p = p ^ 2 - 2 * p + a ^ 2 := rfl
  unfold Spec.dtdlam at hG
  unfold Spec.dphidlam at hF
  rw [Real.sin_pi_div_two, hDel] at hG hF
  have hEr : L - a * E = (p / √(p ^ 2 - 3 * p + 2 * σ * a * √p)) * (σ * √p - a) := by
    rw [hE1, hL1]
    rw [mul_div_assoc' a, ← sub_div, div_mul_eq_mul_div, div_eq_div_iff (by positivity) (by positivity)]
    generalize √(p ^ 2 - 3 * p + 2 * σ * a * √p) = n at *
    generalize √p = s at *
    subst hs2
    linear_combination -2 * a * s ^ 2 * n * hσ2
  have hG' : m'.gamma = (p / √(p ^ 2 - 3 * p + 2 * σ * a * √p)) * (√p * (p * √p + σ * a)) := by
    rw [hG, div_mul_eq_mul_div, mul_div_assoc, hPD]
    rw [show a * (a * E * 1 ^ 2 - L) = -(a * (L - a * E)) by ring, hEr]
    linear_combination -(p / √(p ^ 2 - 3 * p + 2 * σ * a * √p)) * p * hs2
  have hF' : m'.upsilonPhi = (p / √(p ^ 2 - 3 * p + 2 * σ * a * √p)) * (σ * √p) := by
    rw [hF, div_mul_eq_mul_div, mul_div_assoc, hPD]
    rw [show a * E - L / 1 ^ 2 = -(L - a * E) by ring, hEr]
    ring
  have hk : 0 < p * √p + σ * a := by
    have ha1 : a < 1 := D.spin.2
    have : 1 < √p := by rw [← Real.sqrt_one]; exact Real.sqrt_lt_sqrt zero_le_one hp1
    have : 1 < p * √p := one_lt_mul_of_lt_of_le hp1 this.le
    rcases hσ with hh | hh <;> rw [hh] <;> linarith
  have hu : 0 < p / √(p ^ 2 - 3 * p + 2 * σ * a * √p) := by positivity
  have hepi : 0 < Spec.epicyclicR a σ p ∧ 0 < Spec.epicyclicTheta a σ p := by
    constructor
    · by_contra hcon
      have : (√p * (p / √(p ^ 2 - 3 * p + 2 * σ * a * √p))) ^ 2 * Spec.epicyclicR a σ p ≤ 0 :=
        mul_nonpos_of_nonneg_of_nonpos (sq_nonneg _) (not_lt.mp hcon)
      unfold Spec.epicyclicR at this
      rw [Real.sqrt_eq_zero_of_nonpos this] at hUr
      linarith
    · by_contra hcon
      have : (√p * (p / √(p ^ 2 - 3 * p + 2 * σ * a * √p))) ^ 2 * Spec.epicyclicTheta a σ p ≤ 0 :=
        mul_nonpos_of_nonneg_of_nonpos (sq_nonneg _) (not_lt.mp hcon)
      unfold Spec.epicyclicTheta at this
      rw [Real.sqrt_eq_zero_of_nonpos this] at hUt
      linarith
  refine ⟨?_, hepi⟩
  rw [Real.sqrt_mul (sq_nonneg _), Real.sqrt_sq (by positivity)] at hUr hUt
  have habs : |Spec.keplerOmega a σ p| = 1 / (p * √p + σ * a) := by
    unfold Spec.keplerOmega
    rw [abs_div, abs_of_pos hk]
    rcases hσ with hh | hh <;> rw [hh] <;> norm_num
  rw [hfund, hG', hF', hUr, hUt, habs]
  unfold Spec.keplerOmega Spec.epicyclicR Spec.epicyclicTheta
  generalize p / √(p ^ 2 - 3 * p + 2 * σ * a * √p) = u at *
  generalize p * √p + σ * a = k at *
  generalize √p = s at *
  refine congrArg _ (Prod.ext ?_ (Prod.ext ?_ ?_)) <;> simp only <;> field_simp

/-- Non-vacuity: `a = 3/5`, `p = 9`, prograde, satisfies every hypothesis; its frequency is `1 / 27.6`. -/
example (rs : RootScalar) : Spec.BoundOrbit rs (3 / 5) 9 0 1 ∧ ∃ wr wth,
    fundamentalFrequencies rs (3 / 5) 9 0 1 = .ok (wr, wth, 5 / 138) ∧ 0 < wr ∧ 0 < wth := by
  have s9 : √(9:ℝ) = 3 := by
    rw [show (9:ℝ) = 3 ^ 2 by norm_num]; exact Real.sqrt_sq (by norm_num)
  have hb : Spec.BoundOrbit rs (3 / 5) 9 0 1 := by
    obtain ⟨s, h1, h2⟩ := C15_separatrix_returns rs (3 / 5) 0 1 (by norm_num) (by norm_num) le_rfl zero_le_one
      (by norm_num) le_rfl
    have hsx : Spec.signedX (3 / 5) 1 = 1 := by unfold Spec.signedX; rw [if_neg (by norm_num)]
    refine ⟨by rw [abs_lt]; norm_num, ⟨le_rfl, zero_le_one⟩, by norm_num, s, ?_, ?_⟩
    · rw [hsx, abs_of_pos (by norm_num)]; exact h1
    · linarith [(h2.prograde (by norm_num) rfl).2.2]
  refine ⟨hb, ?_⟩
  have hk : Spec.keplerOmega (3 / 5) 1 9 = 5 / 138 := by unfold Spec.keplerOmega; rw [s9]; norm_num
  obtain ⟨h1, h2, h3⟩ := C51_circular_frequencies rs (3 / 5) 9 1 (.inl rfl) (by norm_num) hb
    (fun _ => by norm_num) (fun _ => by
      have hq : √(1 - (3 / 5 : ℝ) ^ 2) = 4 / 5 := by
        rw [show (1 - (3 / 5 : ℝ) ^ 2) = (4 / 5) ^ 2 by norm_num]; exact Real.sqrt_sq (by norm_num)
      unfold Spec.circularE Spec.circularL
      rw [hq, s9]
      have hn : 0 < √((9:ℝ) ^ 2 - 3 * 9 + 2 * 1 * (3 / 5) * 3) := Real.sqrt_pos.mpr (by norm_num)
      intro heq
      field_simp at heq
      norm_num at heq)
  rw [hk] at h1
  refine ⟨_, _, h1, ?_, ?_⟩
  · exact mul_pos (abs_pos.mpr (by norm_num)) (Real.sqrt_pos.mpr h2)
  · exact mul_pos (abs_pos.mpr (by norm_num)) (Real.sqrt_pos.mpr h3)

end KGP
