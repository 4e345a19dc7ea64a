import Verif.Lemmas.EccMono

/-!
# The marginal orbits with a given periapsis

A limit of bound orbits whose inner turning point has become a double root is a spherical orbit at that radius.  With
`u = E (s² + A) - b Y`, `w = Y - b E` the two conditions become `s (D w + b u)² = (s² - A + b²) u²`, and only one sign of
the root belongs to `Y ≥ 0`.  So there is one such orbit for each radius.
-/

namespace KGP.EMono

section
variable {A b s E Y : ℝ} (hb : b ^ 2 ≤ A) (hA : A ≤ 1) (hs : 1 < s) (hD : 0 < D A s) (hY : 0 ≤ Y)
  (hP : 0 ≤ E * (s ^ 2 + A) - b * Y) (h0 : R A b E Y s = 0) (h1 : DR A b E Y s s = 0)
include hb hA hs hD hY hP h0 h1

/-- the two conditions of a spherical orbit -/
lemma spherical : 0 < E * (s ^ 2 + A) - b * Y ∧ 0 < D A s * (Y - b * E) + b * (E * (s ^ 2 + A) - b * Y)
    ∧ s * (D A s * (Y - b * E) + b * (E * (s ^ 2 + A) - b * Y)) ^ 2
      = (s ^ 2 - A + b ^ 2) * (E * (s ^ 2 + A) - b * Y) ^ 2 := by
  have hc : 0 < s ^ 2 + A - b ^ 2 := by nlinarith
  have hK : 0 < s ^ 2 - A + b ^ 2 := by nlinarith [sq_nonneg b]
  have hY' : (s ^ 2 + A - b ^ 2) * Y = (Y - b * E) * (s ^ 2 + A) + b * (E * (s ^ 2 + A) - b * Y) := by ring
  have hEc : (s ^ 2 + A - b ^ 2) * E = (E * (s ^ 2 + A) - b * Y) + b * (Y - b * E) := by ring
  unfold R at h0
  unfold DR at h1
  have hdv : D A s = s ^ 2 - 2 * s + A := rfl
  generalize D A s = d at *
  generalize hu : E * (s ^ 2 + A) - b * Y = u at *
  generalize hw : Y - b * E = w at *
  have hu0 : 0 < u := by
    refine lt_of_le_of_ne hP fun h => ?_
    rw [← h] at h0
    have : 0 < d * (s ^ 2 + A - b ^ 2 + w ^ 2) := by positivity
    linarith
  -- `4 s E u c = ...`
  have key : s * (d * w + b * u) ^ 2 = (s ^ 2 - A + b ^ 2) * u ^ 2 := by
    have e1 : d * (s ^ 2 + A - b ^ 2) * (E * (s + s) * (u + u) - (s + s - 2) * (s ^ 2 + A - b ^ 2 + w ^ 2) - d * (s + s))
        = 0 := by rw [h1, mul_zero]
    have e2 : d * (s ^ 2 + A - b ^ 2) * (E * (s + s) * (u + u)) = 4 * s * d * u * (u + b * w) := by
      rw [← hEc]; ring
    have e3 : d * (s ^ 2 + A - b ^ 2) = u ^ 2 - d * w ^ 2 := by linarith
    have e4 : d * (s ^ 2 + A - b ^ 2 + w ^ 2) = u ^ 2 := by linarith
    have e5 : 4 * s * d * u * (u + b * w) - (s + s - 2) * (s ^ 2 + A - b ^ 2) * u ^ 2
        - (u ^ 2 - d * w ^ 2) * d * (s + s) = 0 := by
      rw [← e2, ← e3, ← e4]; linear_combination e1
    rw [hdv] at e5 ⊢
    linear_combination (1 / 2) * e5
  refine ⟨hu0, ?_, key⟩
  by_contra hcon
  obtain ⟨v, hv⟩ : ∃ v, v = d * w + b * u := ⟨_, rfl⟩
  rw [← hv] at hcon key
  have hv0 : v ≤ 0 := not_lt.mp hcon
  have h2 : 0 ≤ v * (s ^ 2 + A) - 2 * b * s * u := by
    have h3 : 0 ≤ d * ((s ^ 2 + A - b ^ 2) * Y) := by positivity
    rw [hY'] at h3
    rw [hv]
    have : d * (w * (s ^ 2 + A) + b * u) = (d * w + b * u) * (s ^ 2 + A) - 2 * b * s * u := by
      have hds : d - (s ^ 2 + A) = -(2 * s) := by rw [hdv]; ring
      linear_combination b * u * hds
    linarith
  have hsA : 0 < s ^ 2 + A := by nlinarith [sq_nonneg b]
  have h4 : (v * (s ^ 2 + A)) ^ 2 ≤ (2 * b * s * u) ^ 2 := by
    have h5 : v * (s ^ 2 + A) ≤ 0 := mul_nonpos_of_nonpos_of_nonneg hv0 hsA.le
    have : 0 ≤ (v * (s ^ 2 + A) - 2 * b * s * u) * (-(v * (s ^ 2 + A)) - 2 * b * s * u) :=
      mul_nonneg h2 (by linarith)
    linarith
  have h6 : (s ^ 2 - A + b ^ 2) * (s ^ 2 + A) ^ 2 ≤ 4 * b ^ 2 * s ^ 3 := by
    refine le_of_mul_le_mul_right (a := u ^ 2) ?_ (by positivity)
    have : s * (v * (s ^ 2 + A)) ^ 2 ≤ s * (2 * b * s * u) ^ 2 := mul_le_mul_of_nonneg_left h4 (by linarith)
    have h7 : s * (v * (s ^ 2 + A)) ^ 2 = (s ^ 2 - A + b ^ 2) * u ^ 2 * (s ^ 2 + A) ^ 2 := by rw [← key]; ring
    rw [h7] at this
    linarith
  -- linear in `b²`
  have hA0 : 0 ≤ A := le_trans (sq_nonneg b) hb
  have hs0 : 0 < s := by linarith
  have k1 : 0 < (s ^ 2 - A) * (s ^ 2 + A) ^ 2 := by
    have : 0 < s ^ 2 - A := by nlinarith
    positivity
  have k2 : 4 * A * s ^ 3 < s ^ 2 * (s ^ 2 + A) ^ 2 := by
    have h8 : 4 * (s ^ 2 * A) ≤ (s ^ 2 + A) ^ 2 := by linarith [sq_nonneg (s ^ 2 - A)]
    have h9 : 4 * A * s < (s ^ 2 + A) ^ 2 := by
      rcases eq_or_lt_of_le hA0 with h | h
      · rw [← h, mul_zero, zero_mul]; positivity
      · have : 4 * A * s < 4 * A * s ^ 2 := by
          have : s < s ^ 2 := by nlinarith
          exact mul_lt_mul_of_pos_left this (by positivity)
        linarith
    have : s ^ 2 * (4 * A * s) < s ^ 2 * (s ^ 2 + A) ^ 2 := mul_lt_mul_of_pos_left h9 (by positivity)
    linarith
  rcases eq_or_lt_of_le hA0 with h | h
  · have hb0 : b ^ 2 = 0 := le_antisymm (h ▸ hb) (sq_nonneg b)
    rw [hb0, mul_zero, zero_mul, add_zero] at h6
    linarith
  · have m1 : 0 ≤ A - b ^ 2 := by linarith
    have m2 := sq_nonneg b
    have : 0 < (A - b ^ 2) * ((s ^ 2 - A) * (s ^ 2 + A) ^ 2) + b ^ 2 * (s ^ 2 * (s ^ 2 + A) ^ 2 - 4 * A * s ^ 3) := by
      rcases eq_or_lt_of_le m1 with h' | h'
      · have hbA : 0 < b ^ 2 := by linarith
        rw [← h', zero_mul, zero_add]
        exact mul_pos hbA (by linarith)
      · have := mul_pos h' k1
        have := mul_nonneg m2 (show 0 ≤ s ^ 2 * (s ^ 2 + A) ^ 2 - 4 * A * s ^ 3 by linarith)
        linarith
    have h10 : A * ((s ^ 2 - A + b ^ 2) * (s ^ 2 + A) ^ 2) ≤ A * (4 * b ^ 2 * s ^ 3) := mul_le_mul_of_nonneg_left h6 hA0
    linarith

end

/-- **One spherical orbit for each radius.** -/
lemma spherical_unique {A b s E Y E' Y' : ℝ} (hb : b ^ 2 ≤ A) (hA : A ≤ 1) (hs : 1 < s) (hD : 0 < D A s)
    (hY : 0 ≤ Y) (hP : 0 ≤ E * (s ^ 2 + A) - b * Y) (h0 : R A b E Y s = 0) (h1 : DR A b E Y s s = 0)
    (hY' : 0 ≤ Y') (hP' : 0 ≤ E' * (s ^ 2 + A) - b * Y') (h0' : R A b E' Y' s = 0) (h1' : DR A b E' Y' s s = 0) :
    E = E' ∧ Y = Y' := by
  obtain ⟨u0, v0, k⟩ := spherical hb hA hs hD hY hP h0 h1
  obtain ⟨u0', v0', k'⟩ := spherical hb hA hs hD hY' hP' h0' h1'
  have hc : 0 < s ^ 2 + A - b ^ 2 := by nlinarith
  have hYw : (s ^ 2 + A - b ^ 2) * Y = (Y - b * E) * (s ^ 2 + A) + b * (E * (s ^ 2 + A) - b * Y) := by ring
  have hEc : (s ^ 2 + A - b ^ 2) * E = (E * (s ^ 2 + A) - b * Y) + b * (Y - b * E) := by ring
  have hYw' : (s ^ 2 + A - b ^ 2) * Y' = (Y' - b * E') * (s ^ 2 + A) + b * (E' * (s ^ 2 + A) - b * Y') := by ring
  have hEc' : (s ^ 2 + A - b ^ 2) * E' = (E' * (s ^ 2 + A) - b * Y') + b * (Y' - b * E') := by ring
  unfold R at h0 h0'
  generalize D A s = d at *
  generalize E * (s ^ 2 + A) - b * Y = u at *
  generalize E' * (s ^ 2 + A) - b * Y' = u' at *
  generalize Y - b * E = w at *
  generalize Y' - b * E' = w' at *
  have hv : (d * w + b * u) * u' = (d * w' + b * u') * u := by
    refine (sq_eq_sq₀ (by positivity) (by positivity)).mp ?_
    refine mul_left_cancel₀ (show s ≠ 0 by linarith) ?_
    rw [mul_pow, mul_pow, ← mul_assoc, ← mul_assoc, k, k']
    ring
  have hw : w * u' = w' * u := by
    refine mul_left_cancel₀ hD.ne' ?_
    linear_combination hv
  have hu : u = u' := by
    refine (sq_eq_sq₀ u0.le u0'.le).mp ?_
    have h2 : (w * u') ^ 2 = (w' * u) ^ 2 := by rw [hw]
    have h3 : d * (s ^ 2 + A - b ^ 2) * (u ^ 2 - u' ^ 2) = 0 := by
      linear_combination u' ^ 2 * h0 - u ^ 2 * h0' + d * h2
    rcases mul_eq_zero.mp h3 with h | h
    · exact absurd h (by positivity)
    · linarith
  subst hu
  have hw : w = w' := mul_right_cancel₀ u0.ne' hw
  subst hw
  exact ⟨mul_left_cancel₀ hc.ne' (hEc.trans hEc'.symm), mul_left_cancel₀ hc.ne' (hYw.trans hYw'.symm)⟩

/-- **One marginal orbit for each periapsis.** -/
lemma marginal_unique {A b s r r' E Y E' Y' : ℝ} (hb : b ^ 2 ≤ A) (hA : A ≤ 1) (hs : 1 < s) (hD : 0 < D A s)
    (o : Pre A b r s E Y) (o' : Pre A b r' s E' Y') (hr : s ≤ r) (hr' : s ≤ r')
    (h : q A b E Y r s s = 0) (h' : q A b E' Y' r' s s = 0) : r = r' := by
  have ends : ∀ {r E Y : ℝ}, Pre A b r s E Y → s ≤ r → q A b E Y r s s = 0 → R A b E Y s = 0 ∧ DR A b E Y s s = 0 := by
    intro r E Y o hr h
    have hs0 : s ≠ 0 := by linarith
    have hr0 : r ≠ 0 := by linarith
    refine ⟨by rw [o.fac (by linarith) (by linarith), sub_self, mul_zero, zero_mul], ?_⟩
    have e : r * s * (DR A b E Y s s - (s - r) * q A b E Y r s s)
        = (2 * s - r) * (r * DR A b E Y r s - R A b E Y r) + s * R A b E Y r := by
      unfold q R DR D
      field_simp
      ring
    rw [h, o.root, o.root'] at e
    have : r * s * DR A b E Y s s = 0 := by linarith
    rcases mul_eq_zero.mp this with h | h
    · exact absurd h (mul_ne_zero hr0 hs0)
    · exact h
  obtain ⟨a0, a1⟩ := ends o hr h
  obtain ⟨b0, b1⟩ := ends o' hr' h'
  obtain ⟨rfl, rfl⟩ := spherical_unique hb hA hs hD o.hY o.hPs a0 a1 o'.hY o'.hPs b0 b1
  have hE := o.E2
  have hn : 1 - E ^ 2 ≠ 0 := by linarith
  -- the fourth root lies below
  have four : ∀ {r : ℝ}, Pre A b r s E Y → s ≤ r → q A b E Y r s s = 0 → 2 / (1 - E ^ 2) - r - 2 * s ≤ s
      ∧ r * s ^ 2 * (2 / (1 - E ^ 2) - r - 2 * s) * (1 - E ^ 2) = (A - b ^ 2) * (A * (1 - E ^ 2) + Y ^ 2) := by
    intro r o hr h
    have hq := fun t => q_eq (A := A) (b := b) (Y := Y) hE (by linarith : 0 < r) (by linarith : 0 < s) t
    have h2 := hq s
    rw [h] at h2
    have h3 : s ^ 2 - iT E r s * s + iM A b E Y r s = 0 := by
      have : (1 - E ^ 2) * (s ^ 2 - iT E r s * s + iM A b E Y r s) = 0 := by linarith
      exact (mul_eq_zero.mp this).resolve_left hn
    constructor
    · by_contra hcon
      have hcon : s < 2 / (1 - E ^ 2) - r - 2 * s := not_le.mp hcon
      obtain ⟨T, hT⟩ : ∃ T, T = iT E r s := ⟨_, rfl⟩
      have hTv : T = 2 / (1 - E ^ 2) - (r + s) := hT
      have h4 := o.hq ((s + (T - s)) / 2) (by linarith)
      rw [hq, ← hT] at h4
      rw [← hT] at h3
      have : 0 < (1 - E ^ 2) * ((T - 2 * s) ^ 2) := mul_pos (by linarith) (pow_pos (by linarith) 2)
      have h5 : ((s + (T - s)) / 2) ^ 2 - T * ((s + (T - s)) / 2) + iM A b E Y r s = -((T - 2 * s) ^ 2 / 4) := by
        linear_combination h3
      rw [h5] at h4
      linarith
    · have hr0 : r ≠ 0 := by linarith
      have hs0 : s ≠ 0 := by linarith
      unfold iM iT at h3
      generalize hτ : 2 / (1 - E ^ 2) = τ at *
      have h6 : (A - b ^ 2) * (A * (1 - E ^ 2) + Y ^ 2) / ((1 - E ^ 2) * (r * s)) = s * (τ - r - 2 * s) := by linarith
      rw [div_eq_iff (mul_ne_zero hn (mul_ne_zero hr0 hs0))] at h6
      linarith
  obtain ⟨f1, f2⟩ := four o hr h
  obtain ⟨g1, g2⟩ := four o' hr' h'
  generalize 2 / (1 - E ^ 2) = τ at *
  have : s ^ 2 * (1 - E ^ 2) * ((r - r') * (τ - 2 * s - r - r')) = 0 := by linear_combination f2 - g2
  rcases mul_eq_zero.mp this with k | k
  · exact absurd k (mul_ne_zero (by positivity) hn)
  · rcases mul_eq_zero.mp k with k | k <;> linarith

end KGP.EMono
