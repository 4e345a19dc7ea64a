import Verif.Lemmas.EnergyPath

/-!
# How the constants of a bound orbit move with its eccentricity

With `S = r + s`, `g = r s - c`, `c = A - b²` the sum `T` and the product `M` of the two inner roots determine each other,
and the comparison of the two turning points becomes an inequality between polynomials of `S`, `g`, `c`, `T`.
-/

namespace KGP.EMono

open Set Filter Topology

/-- the sum of the two inner roots -/
noncomputable def iT (E r s : ℝ) : ℝ := 2 / (1 - E ^ 2) - (r + s)
/-- their product -/
noncomputable def iM (A b E Y r s : ℝ) : ℝ := (A - b ^ 2) * (A * (1 - E ^ 2) + Y ^ 2) / ((1 - E ^ 2) * (r * s))

lemma q_eq {A b E Y r s : ℝ} (hE : E ^ 2 < 1) (hr : 0 < r) (hs : 0 < s) (t : ℝ) :
    q A b E Y r s t = -((1 - E ^ 2) * (t ^ 2 - iT E r s * t + iM A b E Y r s)) := by
  have : 1 - E ^ 2 ≠ 0 := by linarith
  unfold q iT iM
  field_simp
  ring

namespace Pre

variable {A b r s E Y : ℝ} (o : Pre A b r s E Y)
include o

lemma fac (hr : 0 < r) (hs : 0 < s) (t : ℝ) : R A b E Y t = (t - r) * (t - s) * q A b E Y r s t := by
  have hr0 : r ≠ 0 := hr.ne'
  have hs0 : s ≠ 0 := hs.ne'
  have h1 := o.root
  have h2 := o.root'
  have key : r * s * (R A b E Y t - (t - r) * (t - s) * q A b E Y r s t)
      = t * ((t - r) * (r * DR A b E Y r s - R A b E Y r) + s * R A b E Y r) := by
    unfold q R DR D
    field_simp
    ring
  rw [h1, h2] at key
  have : r * s * (R A b E Y t - (t - r) * (t - s) * q A b E Y r s t) = 0 := by rw [key]; ring
  rcases mul_eq_zero.mp this with h | h
  · exact absurd h (mul_ne_zero hr0 hs0)
  · linarith

lemma hST : (1 - E ^ 2) * (r + s + iT E r s) = 2 := by
  have : 1 - E ^ 2 ≠ 0 := by linarith [o.E2]
  unfold iT; field_simp; ring

set_option maxHeartbeats 1000000 in
/-- the coefficients of the potential -/
lemma coeffs (hr : 0 < r) (hs : 0 < s) :
    iM A b E Y r s * (r * s - (A - b ^ 2)) = (A - b ^ 2) * (r * s - (A - b ^ 2)) + (A - b ^ 2) * (r + s) * iT E r s
    ∧ (Y - b * E) ^ 2 * (r * s - (A - b ^ 2)) * (r + s + iT E r s)
      = iT E r s * ((r * s - (A - b ^ 2)) ^ 2 + (A - b ^ 2) * (r + s) ^ 2) := by
  have hE := o.E2
  have hn : 0 < 1 - E ^ 2 := by linarith
  have f0 := o.fac hr hs 0
  have f1 := o.fac hr hs 1
  have f2 := o.fac hr hs (-1)
  have hST := o.hST
  rw [q_eq hE hr hs] at f0 f1 f2
  have hM : (1 - E ^ 2) * (r * s) * iM A b E Y r s = (A - b ^ 2) * (A * (1 - E ^ 2) + Y ^ 2) := by
    have : 1 - E ^ 2 ≠ 0 := hn.ne'
    unfold iM; field_simp
  have hrs : 0 < r * s := by positivity
  generalize iT E r s = T at *
  generalize iM A b E Y r s = M at *
  have c2 : (r * s + (r + s) * T + M - A - (A - b ^ 2)) * (1 - E ^ 2) = Y ^ 2 := by
    unfold R D at f0 f1 f2
    linear_combination (1 / 2) * f1 + (1 / 2) * f2 - f0
  have c1 : (r * s * T + M * (r + s)) * (1 - E ^ 2) = 2 * ((Y - b * E) ^ 2 + (A - b ^ 2)) := by
    unfold R D at f0 f1 f2
    linear_combination -(1 / 2) * f1 + (1 / 2) * f2 - hST
  have k1 : M * (r * s - (A - b ^ 2)) = (A - b ^ 2) * (r * s - (A - b ^ 2)) + (A - b ^ 2) * (r + s) * T := by
    refine mul_left_cancel₀ hn.ne' ?_
    linear_combination hM - (A - b ^ 2) * c2
  refine ⟨k1, ?_⟩
  have k2 : ((Y - b * E) ^ 2 + (A - b ^ 2)) * (r + s + T) = r * s * T + M * (r + s) := by
    refine mul_left_cancel₀ hn.ne' ?_
    linear_combination ((Y - b * E) ^ 2 + (A - b ^ 2)) * hST - c1
  linear_combination (r * s - (A - b ^ 2)) * k2 + (r + s) * k1

/-- the smaller inner root is below 1, the larger one is not -/
lemma T_ge (hb : b ^ 2 ≤ A) (hA : A ≤ 1) (hs : 1 < s) (hsr : s ≤ r) : 1 + iM A b E Y r s ≤ iT E r s := by
  have f := o.fac (by linarith) (by linarith) 1
  rw [q_eq o.E2 (by linarith) (by linarith)] at f
  have h1 : 0 ≤ R A b E Y 1 := by
    unfold R D
    have : 0 ≤ (1 - A) * (1 ^ 2 + A - b ^ 2 + (Y - b * E) ^ 2) :=
      mul_nonneg (by linarith) (by nlinarith [sq_nonneg (Y - b * E)])
    nlinarith [sq_nonneg (E * (1 ^ 2 + A) - b * Y)]
  rw [f] at h1
  have h2 : 0 < (1 - r) * (1 - s) := mul_pos_of_neg_of_neg (by linarith) (by linarith)
  have h3 := nonneg_of_mul_nonneg_right h1 h2
  have h4 : 0 ≤ (1 - E ^ 2) * (iT E r s - 1 - iM A b E Y r s) := by linarith
  have := nonneg_of_mul_nonneg_right h4 (by linarith [o.E2])
  linarith

lemma N_nonneg (hs : 1 < s) (hsr : s ≤ r) {t : ℝ} (ht : s ≤ t) : 0 ≤ t ^ 2 - iT E r s * t + iM A b E Y r s := by
  have h := o.hq t ht
  rw [q_eq o.E2 (by linarith) (by linarith)] at h
  exact nonneg_of_mul_nonneg_right (a := 1 - E ^ 2) (by linarith) (by linarith [o.E2])

lemma M_nonneg (hb : b ^ 2 ≤ A) (hs : 1 < s) (hsr : s ≤ r) : 0 ≤ iM A b E Y r s := by
  have := o.E2
  unfold iM
  have hA0 : 0 ≤ A := (sq_nonneg b).trans hb
  have h1 : 0 ≤ A - b ^ 2 := by linarith
  have h2 : 0 ≤ 1 - E ^ 2 := by linarith
  have h3 : 0 < r := by linarith
  have h4 : 0 < s := by linarith
  positivity

lemma M_le (hb : b ^ 2 ≤ A) (hA : A ≤ 1) (hs : 1 < s) (hsr : s ≤ r) : iM A b E Y r s ≤ s := by
  have h1 := o.T_ge hb hA hs hsr
  have h2 := o.N_nonneg hs hsr le_rfl
  generalize iT E r s = T at *
  generalize iM A b E Y r s = M at *
  have h3 : 0 ≤ (s - 1) * (s - M) := by nlinarith
  linarith [nonneg_of_mul_nonneg_right h3 (by linarith)]

lemma T_le (hb : b ^ 2 ≤ A) (hA : A ≤ 1) (hs : 1 < s) (hsr : s ≤ r) : iT E r s ≤ s + 1 := by
  have h1 := o.M_le hb hA hs hsr
  have h2 := o.N_nonneg hs hsr le_rfl
  generalize iT E r s = T at *
  generalize iM A b E Y r s = M at *
  have h3 : 0 ≤ s * (s + 1 - T) := by nlinarith
  linarith [nonneg_of_mul_nonneg_right h3 (by linarith)]

end Pre

/-! ### the inequality -/

/-- `rs - c > √c (r + s)` -/
lemma J_pos {c r s T M : ℝ} (hc : 0 ≤ c) (hc1 : c ≤ 1) (hs : 1 < s) (hsr : s ≤ r)
    (hM : M * (r * s - c) = c * (r * s - c) + c * (r + s) * T) (hT : 1 + M ≤ T) (hMs : M ≤ s) (hMn : 0 ≤ M) :
    0 < (r * s - c) ^ 2 - c * (r + s) ^ 2 := by
  obtain ⟨k, hk0, hk⟩ : ∃ k : ℝ, 0 ≤ k ∧ k ^ 2 = c := ⟨√c, Real.sqrt_nonneg c, Real.sq_sqrt hc⟩
  have hk1 : k ≤ 1 := by nlinarith
  have hg : 0 < r * s - c := by nlinarith
  suffices h : k * (r + s) < r * s - c by
    have h1 : 0 ≤ k * (r + s) := mul_nonneg hk0 (by linarith)
    have h2 : (k * (r + s)) ^ 2 < (r * s - c) ^ 2 := pow_lt_pow_left₀ h h1 two_ne_zero
    rw [mul_pow, hk] at h2
    linarith
  by_contra hcon
  have hcon : r * s - c ≤ k * (r + s) := not_lt.mp hcon
  have hk' : 0 < k := by
    rcases eq_or_lt_of_le hk0 with h | h
    · rw [← h, zero_mul] at hcon; linarith
    · exact h
  have hS : 0 < r + s := by linarith
  obtain ⟨g, hgd⟩ : ∃ g, g = r * s - c := ⟨_, rfl⟩
  obtain ⟨S, hSd⟩ : ∃ S, S = r + s := ⟨_, rfl⟩
  -- `s - k ≥ k (s + k)`
  have h1 : c * (g + S) ≤ M * (g - c * S) := by
    have : c * S * (1 + M) ≤ c * S * T := mul_le_mul_of_nonneg_left hT (by rw [hSd]; positivity)
    rw [hgd, hSd] at *; nlinarith
  have hgS : 0 < g + S := by rw [hgd, hSd]; linarith
  have hc0 : 0 < c := by rw [← hk]; positivity
  have hM0 : 0 < M := by
    rcases eq_or_lt_of_le hMn with h | h
    · rw [← h, zero_mul] at h1
      have := mul_pos hc0 hgS
      linarith
    · exact h
  have h2 : c * (g + S) ≤ s * (g - c * S) := by
    have h4 : 0 < M * (g - c * S) := lt_of_lt_of_le (mul_pos hc0 hgS) h1
    have h5 : 0 < g - c * S := (pos_iff_pos_of_mul_pos h4).mp hM0
    exact h1.trans (mul_le_mul_of_nonneg_right hMs h5.le)
  have hsk : k < s := by linarith
  have hsc : 0 < s - c := by nlinarith
  have h3 : c * (s + 1) * S ≤ k * S * (s - c) := by
    have : g * (s - c) ≤ k * S * (s - c) := mul_le_mul_of_nonneg_right (by rw [hgd, hSd]; exact hcon) hsc.le
    nlinarith
  have h4 : k * (s + k) ≤ s - k := by
    have hS' : 0 < k * S := by rw [hSd]; positivity
    have : k * S * (k * (s + 1)) ≤ k * S * (s - c) := by rw [← hk] at h3 ⊢; nlinarith
    have := le_of_mul_le_mul_left this hS'
    rw [← hk] at this; linarith
  have h5 : s * (s - k) ≤ k * (s + k) := by
    have i1 : s * (s - k) ≤ r * (s - k) := mul_le_mul_of_nonneg_right hsr (by linarith)
    rw [← hk] at hcon
    nlinarith
  nlinarith [mul_pos (sub_pos.mpr hs) (sub_pos.mpr hsk)]

/-- the two polynomial inequalities -/
lemma F2_pos {c g S T : ℝ} (hc : 0 ≤ c) (hJ : 0 < g ^ 2 - c * S ^ 2) (hgc : c < g) (hS : 2 < S)
    (hd : 0 < g + 1 + c - S) (hT0 : 0 < T) (hT : (1 + c) * g ≤ T * (g - c * S)) :
    (1 + c) * (g * (S ^ 2 - g) - T * (S * (g - c))) < T * ((g + c) * (g ^ 2 - c * S ^ 2)) := by
  have hg : 0 < g := by linarith
  have h0 : 0 < T * (g - c * S) := lt_of_lt_of_le (by positivity) hT
  have hh : 0 < g - c * S := (pos_iff_pos_of_mul_pos h0).mp hT0
  obtain ⟨J, hJd⟩ : ∃ J, J = g ^ 2 - c * S ^ 2 := ⟨_, rfl⟩
  rw [← hJd] at hJ ⊢
  have h1 : 0 < (g + c) * J + (1 + c) * (S * (g - c)) := by
    have : 0 < g - c := by linarith
    positivity
  have h2 := mul_le_mul_of_nonneg_right hT h1.le
  have h3 : 0 < (1 + c) * g * ((g + 1 + c - S) * (J + S * (g - c))) := by
    have : 0 < g - c := by linarith
    positivity
  have e : (g + c) * J + (1 + c) * (S * (g - c)) - (S ^ 2 - g) * (g - c * S) = (g + 1 + c - S) * (J + S * (g - c)) := by
    rw [hJd]; ring
  have h4 : 0 < (g - c * S) * (T * ((g + c) * J + (1 + c) * (S * (g - c))) - (1 + c) * (g * (S ^ 2 - g))) := by
    rw [← e] at h3
    nlinarith
  have := (pos_iff_pos_of_mul_pos h4).mp hh
  linarith

lemma F1_pos {c g S T : ℝ} (hc : 0 ≤ c) (hc1 : c ≤ 1) (hJ : 0 < g ^ 2 - c * S ^ 2) (hgc : 2 * c < g) (hS : 2 < S)
    (hSg : g ≤ S ^ 2) (hd : 0 < g + 1 + c - S) (hT0 : 0 < T) (hT : (1 + c) * g ≤ T * (g - c * S)) :
    (1 - c) * (g ^ 2 + c * S ^ 2) * (g * (S ^ 2 - g) - T * (S * (g - c)))
      < (1 + c) * g * (S + T - 2) * ((g + c) * (g ^ 2 - c * S ^ 2)) := by
  have hg : 0 < g := by linarith
  have h0 : 0 < T * (g - c * S) := lt_of_lt_of_le (by positivity) hT
  have hh : 0 < g - c * S := (pos_iff_pos_of_mul_pos h0).mp hT0
  obtain ⟨J, hJd⟩ : ∃ J, J = g ^ 2 - c * S ^ 2 := ⟨_, rfl⟩
  obtain ⟨K, hKd⟩ : ∃ K, K = g ^ 2 + c * S ^ 2 := ⟨_, rfl⟩
  rw [← hJd] at hJ ⊢
  rw [← hKd]
  have hK : 0 < K := by rw [hKd]; positivity
  have hgc' : 0 < g - c := by linarith
  have h1c : 0 ≤ 1 - c := by linarith
  -- the quotient
  have hQ : 0 < 2 * (1 - c) * g ^ 2 * S * (g - c)
      + J * ((3 * c - 1) * (g * S) + (1 + c) * c * S + c * (1 - c) * (S ^ 2 - g)) := by
    have i1 : 0 ≤ J * ((1 + c) * c * S + c * (1 - c) * (S ^ 2 - g)) := by
      have : 0 ≤ S ^ 2 - g := by linarith
      positivity
    rcases le_or_gt (1 / 3) c with h | h
    · have i2 : 0 ≤ J * ((3 * c - 1) * (g * S)) := by
        have : 0 ≤ 3 * c - 1 := by linarith
        positivity
      rcases eq_or_lt_of_le h1c with h5 | h5
      · have i3 : 0 < J * ((3 * c - 1) * (g * S)) := by
          have : 0 < 3 * c - 1 := by linarith
          positivity
        rw [← h5] at i1 ⊢
        linarith
      · have : 0 < 2 * (1 - c) * g ^ 2 * S * (g - c) := by positivity
        linarith
    · have hJg : J ≤ g ^ 2 := by rw [hJd]; have : 0 ≤ c * S ^ 2 := by positivity
                                 linarith
      have i2 : J * ((1 - 3 * c) * (g * S)) ≤ g ^ 2 * ((1 - 3 * c) * (g * S)) :=
        mul_le_mul_of_nonneg_right hJg (mul_nonneg (by linarith) (by positivity))
      have i3 : 0 < g ^ 2 * S * ((1 + c) * g - 2 * c * (1 - c)) := by
        have : 0 < (1 + c) * g - 2 * c * (1 - c) := by nlinarith
        positivity
      nlinarith
  have e : (1 + c) * ((g + c) * J) * ((S - 2) * (g - c * S) + (1 + c) * g)
        - (1 - c) * K * ((S ^ 2 - g) * (g - c * S) - (1 + c) * (S * (g - c)))
      = (g + 1 + c - S) * (2 * (1 - c) * g ^ 2 * S * (g - c)
        + J * ((3 * c - 1) * (g * S) + (1 + c) * c * S + c * (1 - c) * (S ^ 2 - g))) := by
    rw [hJd, hKd]; ring
  have h3 := mul_pos hg (mul_pos hd hQ)
  rw [← e] at h3
  clear e hQ
  have h1 : 0 ≤ (1 + c) * g * ((g + c) * J) + (1 - c) * K * (S * (g - c)) := by positivity
  have h2 := mul_le_mul_of_nonneg_right hT h1
  have h4 : 0 < (g - c * S) * ((1 + c) * g * (S + T - 2) * ((g + c) * J)
      - (1 - c) * K * (g * (S ^ 2 - g) - T * (S * (g - c)))) := by
    have e2 : (g - c * S) * ((1 + c) * g * (S + T - 2) * ((g + c) * J)
          - (1 - c) * K * (g * (S ^ 2 - g) - T * (S * (g - c))))
        = T * (g - c * S) * ((1 + c) * g * ((g + c) * J) + (1 - c) * K * (S * (g - c)))
          + (g - c * S) * ((1 + c) * g * (S - 2) * ((g + c) * J) - (1 - c) * K * (g * (S ^ 2 - g))) := by ring
    have e3 : (1 + c) * g * ((1 + c) * g * ((g + c) * J) + (1 - c) * K * (S * (g - c)))
          + (g - c * S) * ((1 + c) * g * (S - 2) * ((g + c) * J) - (1 - c) * K * (g * (S ^ 2 - g)))
        = g * ((1 + c) * ((g + c) * J) * ((S - 2) * (g - c * S) + (1 + c) * g)
          - (1 - c) * K * ((S ^ 2 - g) * (g - c * S) - (1 + c) * (S * (g - c)))) := by ring
    rw [e2]
    linarith
  have := (pos_iff_pos_of_mul_pos h4).mp hh
  linarith

set_option maxHeartbeats 1000000 in
/-- **The comparison of the two turning points.** -/
lemma bez_pos {b c g S T v E : ℝ} (hc : 0 ≤ c) (hbc : b ^ 2 + c ≤ 1) (hJ : 0 < g ^ 2 - c * S ^ 2) (hgc : 2 * c < g)
    (hS : 2 < S) (hSg : g ≤ S ^ 2) (hd : 0 < g + 1 + c - S) (hT0 : 0 < T) (hT : (1 + c) * g ≤ T * (g - c * S))
    (hv : 0 < v) (hE : 0 < E) (hY : 0 < v + b * E)
    (hE2 : E ^ 2 * (S + T) = S + T - 2) (hv2 : v ^ 2 * g * (S + T) = T * (g ^ 2 + c * S ^ 2))
    (hX : 0 ≤ g * (S ^ 2 - g) - T * (S * (g - c))) :
    2 * v * (b * v - c * E) * (g * (S ^ 2 - g) - T * (S * (g - c)))
      < (v + b * E) * E * (T * ((g + c) * (g ^ 2 - c * S ^ 2))) := by
  have hg : 0 < g := by linarith
  have hc1 : c ≤ 1 := by nlinarith [sq_nonneg b]
  have hpos : 0 < T * ((g + c) * (g ^ 2 - c * S ^ 2)) := by positivity
  rcases le_or_gt (b * v - c * E) 0 with hm | hm
  · have h1 : 2 * v * (b * v - c * E) * (g * (S ^ 2 - g) - T * (S * (g - c))) ≤ 0 :=
      mul_nonpos_of_nonpos_of_nonneg (mul_nonpos_of_nonneg_of_nonpos (by positivity) hm) hX
    have h2 : 0 < (v + b * E) * E * (T * ((g + c) * (g ^ 2 - c * S ^ 2))) := by positivity
    linarith
  have hb : 0 < b := by
    by_contra h
    have h1 : b * v ≤ 0 := mul_nonpos_of_nonpos_of_nonneg (not_lt.mp h) hv.le
    have : 0 ≤ c * E := by positivity
    linarith
  obtain ⟨B, hB0, hB⟩ : ∃ B : ℝ, 0 ≤ B ∧ B ^ 2 = 1 - c :=
    ⟨√(1 - c), Real.sqrt_nonneg _, Real.sq_sqrt (by linarith)⟩
  have hbB : b ≤ B := le_of_sq_le_sq (by linarith) hB0
  have hBp : 0 < B := by linarith
  rcases le_or_gt (B * v) ((1 + c) * E) with h | h
  · -- small `v`
    have k1 : 2 * v * (b * v - c * E) ≤ (1 + c) * ((v + b * E) * E) := by
      -- linear in `b` on `[0, B]`
      have e0 : 0 ≤ (1 + 3 * c) * v * E := by positivity
      have eB : 0 ≤ ((1 + c) * E - B * v) * (2 * (B * v) + (1 - c) * E) :=
        mul_nonneg (by linarith) (by have : 0 ≤ (1 - c) * E := mul_nonneg (by linarith) hE.le
                                     have : 0 ≤ B * v := by positivity
                                     linarith)
      have e1 : B * ((1 + c) * ((v + B * E) * E) - 2 * v * (B * v - c * E))
          = ((1 + c) * E - B * v) * (2 * (B * v) + (1 - c) * E) := by
        linear_combination ((1 + c) * E ^ 2) * hB
      rw [← e1] at eB
      have eB' := nonneg_of_mul_nonneg_right eB hBp
      have e2 : 0 ≤ B * ((1 + c) * ((v + b * E) * E) - 2 * v * (b * v - c * E)) := by
        have : B * ((1 + c) * ((v + b * E) * E) - 2 * v * (b * v - c * E))
            = (B - b) * ((1 + 3 * c) * v * E) + b * ((1 + c) * ((v + B * E) * E) - 2 * v * (B * v - c * E)) := by ring
        rw [this]
        have := mul_nonneg (sub_nonneg.mpr hbB) e0
        have := mul_nonneg hb.le eB'
        linarith
      linarith [nonneg_of_mul_nonneg_right e2 hBp]
    have k2 := F2_pos hc hJ (by linarith) hS hd hT0 hT
    have k3 := mul_le_mul_of_nonneg_right k1 hX
    have k4 := mul_lt_mul_of_pos_left k2 (mul_pos hY hE)
    linarith
  · -- large `v`
    have k1 : 2 * (1 + c) * (b * v - c * E) * E ≤ (1 - c) * (v * (v + b * E)) := by
      have e1 : 0 ≤ (B * v - (1 + c) * E) * (B * v - 2 * c * E) :=
        mul_nonneg (by linarith) (by
          have : 0 ≤ (1 - c) * E := mul_nonneg (by linarith) hE.le
          linarith)
      have e2 : (1 - c) * (v * (v + b * E)) - 2 * (1 + c) * (b * v - c * E) * E
          = (B * v - (1 + c) * E) * (B * v - 2 * c * E) + (1 + 3 * c) * ((B - b) * (v * E)) := by
        linear_combination -(v ^ 2) * hB
      have e3 : 0 ≤ (1 + 3 * c) * ((B - b) * (v * E)) := by
        have : 0 ≤ B - b := by linarith
        positivity
      linarith
    have k2 := F1_pos hc hc1 hJ hgc hS hSg hd hT0 hT
    obtain ⟨X, hXd⟩ : ∃ X, X = g * (S ^ 2 - g) - T * (S * (g - c)) := ⟨_, rfl⟩
    obtain ⟨W, hWd⟩ : ∃ W, W = (g + c) * (g ^ 2 - c * S ^ 2) := ⟨_, rfl⟩
    rw [← hXd] at hX k2 ⊢
    rw [← hWd] at k2 ⊢
    have hST : 0 < S + T := by linarith
    -- `(1 - c) v² X < (1 + c) E² T W`
    have k3 : (1 - c) * v ^ 2 * X < (1 + c) * E ^ 2 * (T * W) := by
      have : g * (S + T) * ((1 - c) * v ^ 2 * X) < g * (S + T) * ((1 + c) * E ^ 2 * (T * W)) := by
        have e1 : g * (S + T) * ((1 - c) * v ^ 2 * X) = T * ((1 - c) * (g ^ 2 + c * S ^ 2) * X) := by
          linear_combination ((1 - c) * X) * hv2
        have e2 : g * (S + T) * ((1 + c) * E ^ 2 * (T * W)) = T * ((1 + c) * g * (S + T - 2) * W) := by
          linear_combination (g * (1 + c) * (T * W)) * hE2
        rw [e1, e2]
        exact mul_lt_mul_of_pos_left k2 hT0
      exact lt_of_mul_lt_mul_left this (by positivity)
    have k4 : 2 * (1 + c) * (b * v - c * E) * E * (v * X) ≤ (1 - c) * (v * (v + b * E)) * (v * X) :=
      mul_le_mul_of_nonneg_right k1 (mul_nonneg hv.le hX)
    have k5 := mul_lt_mul_of_pos_left k3 hY
    have k6 : (1 + c) * E * (2 * v * (b * v - c * E) * X) < (1 + c) * E * ((v + b * E) * E * (T * W)) := by
      linarith
    exact lt_of_mul_lt_mul_left k6 (by positivity)

/-- the weight of the turning points -/
lemma gain_eq (A b E Y t : ℝ) : Y * al A b E Y t - A * E * be A b E Y t
    = t * (Y * E * (t * (t ^ 2 + (A - b ^ 2))) - 2 * (Y - b * E) * (b * (Y - b * E) - (A - b ^ 2) * E)) := by
  unfold al be D; ring

lemma cross_eq (c ε μ T M r s : ℝ) :
    r * (r ^ 2 - T * r + M) * (ε * (s * (s ^ 2 + c)) - μ) - s * (s ^ 2 - T * s + M) * (ε * (r * (r ^ 2 + c)) - μ)
      = (r - s) * (ε * (T * (r * s) * (r * s - c) - r * s * (r + s) * (M - c))
        - μ * ((r + s) ^ 2 - r * s - T * (r + s) + M)) := by
  ring

/-- The two turning points of an orbit, compared. -/
lemma Orb.cmp {A b r s E Y : ℝ} (o : Orb A b r s E Y) (hs : 1 < s) (hsr : s < r) :
    s ^ 2 * (-q A b E Y r s s) * (Y * al A b E Y r - A * E * be A b E Y r)
      < r ^ 2 * (-q A b E Y r s r) * (Y * al A b E Y s - A * E * be A b E Y s) := by
  have hr : 0 < r := by linarith
  have hs0 : 0 < s := by linarith
  have hE2 := o.E2
  have hn : 0 < 1 - E ^ 2 := by linarith
  have hc : 0 ≤ A - b ^ 2 := by linarith [o.hb]
  have hA := o.hA
  have P := o.pre
  obtain ⟨cM, cv⟩ := P.coeffs hr hs0
  have hST := P.hST
  have hT := P.T_ge o.hb o.hA hs hsr.le
  have hMs := P.M_le o.hb o.hA hs hsr.le
  have hTs := P.T_le o.hb o.hA hs hsr.le
  have hM0 := P.M_nonneg o.hb hs hsr.le
  have hN := P.N_nonneg hs hsr.le hsr.le
  have hV := o.V_neg
  have hE := o.hE
  have hY := o.hY
  rw [q_eq hE2 hr hs0, q_eq hE2 hr hs0, gain_eq, gain_eq]
  clear P o
  generalize iT E r s = T at *
  generalize iM A b E Y r s = M at *
  obtain ⟨c, hcd⟩ : ∃ c, c = A - b ^ 2 := ⟨_, rfl⟩
  obtain ⟨v, hvd⟩ : ∃ v, v = Y - b * E := ⟨_, rfl⟩
  have hbc : b ^ 2 + c ≤ 1 := by linarith
  rw [← hcd] at hc cM cv ⊢
  rw [← hvd] at cv ⊢
  obtain ⟨g, hg⟩ : ∃ g, g = r * s - c := ⟨_, rfl⟩
  obtain ⟨S, hS⟩ : ∃ S, S = r + s := ⟨_, rfl⟩
  have hJ := J_pos hc (by nlinarith [sq_nonneg b]) hs hsr.le cM hT hMs hM0
  rw [← hg, ← hS] at hJ cM cv
  rw [← hS] at hST
  have hc1 : c ≤ 1 := by nlinarith [sq_nonneg b]
  have hS2 : 2 < S := by rw [hS]; linarith
  have hg0 : 0 < g := by rw [hg]; nlinarith
  have hT0 : 0 < T := by linarith
  have hTh : (1 + c) * g ≤ T * (g - c * S) := by nlinarith [mul_le_mul_of_nonneg_right hT hg0.le]
  have hh : 0 < g - c * S := (pos_iff_pos_of_mul_pos (lt_of_lt_of_le (by positivity : 0 < (1 + c) * g) hTh)).mp hT0
  have hgc : 2 * c < g := by
    have : c * 2 ≤ c * S := mul_le_mul_of_nonneg_left hS2.le hc
    linarith
  have hd : 0 < g + 1 + c - S := by
    have : 0 < (r - 1) * (s - 1) := mul_pos (by linarith) (by linarith)
    rw [hg, hS]; linarith
  have hSg : g ≤ S ^ 2 := by rw [hg, hS]; nlinarith [sq_nonneg (r - s)]
  have hX : g * ((r + s) ^ 2 - r * s - T * (r + s) + M) = g * (S ^ 2 - g) - T * (S * (g - c)) := by
    have : r * s = g + c := by linarith
    rw [← hS, this]
    linear_combination cM
  have hX0 : 0 ≤ (r + s) ^ 2 - r * s - T * (r + s) + M := by
    have : 0 ≤ s * (r + s - T) := mul_nonneg hs0.le (by linarith)
    nlinarith
  have hYv : v + b * E = Y := by linarith
  have main := bez_pos (b := b) (v := v) (E := E) hc hbc hJ hgc hS2 hSg hd hT0 hTh (by linarith) hE (by linarith)
    (by linear_combination -hST) cv (by rw [← hX]; positivity)
  rw [← hX, hYv] at main
  have e1 : g * (T * (r * s) * (r * s - c) - r * s * (r + s) * (M - c)) = T * ((g + c) * (g ^ 2 - c * S ^ 2)) := by
    have : r * s = g + c := by linarith
    rw [← hS, this]
    linear_combination -((g + c) * S) * cM
  have hpos : 0 < g * (Y * E * (T * (r * s) * (r * s - c) - r * s * (r + s) * (M - c))
      - 2 * v * (b * v - c * E) * ((r + s) ^ 2 - r * s - T * (r + s) + M)) := by
    have : g * (Y * E * (T * (r * s) * (r * s - c) - r * s * (r + s) * (M - c))
        - 2 * v * (b * v - c * E) * ((r + s) ^ 2 - r * s - T * (r + s) + M))
        = Y * E * (T * ((g + c) * (g ^ 2 - c * S ^ 2)))
          - 2 * v * (b * v - c * E) * (g * ((r + s) ^ 2 - r * s - T * (r + s) + M)) := by
      rw [← e1]; ring
    rw [this]; linarith
  have hpos' := (pos_iff_pos_of_mul_pos hpos).mp hg0
  have cr := cross_eq c (Y * E) (2 * v * (b * v - c * E)) T M r s
  have fin : 0 < r * s * (1 - E ^ 2) * ((r - s) * (Y * E * (T * (r * s) * (r * s - c) - r * s * (r + s) * (M - c))
      - 2 * v * (b * v - c * E) * ((r + s) ^ 2 - r * s - T * (r + s) + M))) :=
    mul_pos (by positivity) (mul_pos (by linarith) hpos')
  rw [← cr] at fin
  linarith

/-! ### the marginal orbit -/

/-- the divided difference of the potential -/
lemma Pre.fac' {A b r s E Y : ℝ} (o : Pre A b r s E Y) (hr : 0 < r) (hs : 0 < s) (t : ℝ) :
    DR A b E Y t s = (t - r) * q A b E Y r s t := by
  have hr0 : r ≠ 0 := hr.ne'
  have hs0 : s ≠ 0 := hs.ne'
  have h1 := o.root
  have h2 := o.root'
  have key : r * s * (DR A b E Y t s - (t - r) * q A b E Y r s t)
      = r * (t + s - r) * DR A b E Y r s - (t - r) * R A b E Y r := by
    unfold q R DR D
    field_simp
    ring
  rw [h1, h2] at key
  have : r * s * (DR A b E Y t s - (t - r) * q A b E Y r s t) = 0 := by rw [key]; ring
  rcases mul_eq_zero.mp this with h | h
  · exact absurd h (mul_ne_zero hr0 hs0)
  · linarith

/-- the horizon function decreases slower than the square of the distance of the innermost root -/
lemma D_cmp {A z r s : ℝ} (hA : A ≤ 1) (hz : 0 ≤ D A z) (hz1 : z ≤ 1) (hs : 1 < s) (hsr : s ≤ r) :
    D A s * (r - z) ^ 2 ≤ D A r * (s - z) ^ 2 := by
  have e : D A r * (s - z) ^ 2 - D A s * (r - z) ^ 2
      = (r - s) * (2 * (1 - z) * ((r - z) * (s - z)) - D A z * ((r - z) + (s - z))) := by
    unfold D; ring
  have h1 : D A z ≤ (1 - z) ^ 2 := by unfold D; nlinarith
  have h2 : D A z * (r - z) ≤ (1 - z) * ((r - z) * (s - z)) := by
    have i1 : D A z ≤ (1 - z) * (s - z) := h1.trans (by nlinarith)
    have := mul_le_mul_of_nonneg_right i1 (show 0 ≤ r - z by linarith)
    linarith
  have h3 : D A z * (s - z) ≤ (1 - z) * ((r - z) * (s - z)) := by
    have i1 : D A z ≤ (1 - z) * (r - z) := h1.trans (by nlinarith)
    have := mul_le_mul_of_nonneg_right i1 (show 0 ≤ s - z by linarith)
    linarith
  have h4 : 0 ≤ (r - s) * (2 * (1 - z) * ((r - z) * (s - z)) - D A z * ((r - z) + (s - z))) :=
    mul_nonneg (by linarith) (by linarith)
  linarith

lemma Br_pre {A b r s E Y : ℝ} (o : Pre A b r s E Y) (hb : b ^ 2 ≤ A) (hA : A ≤ 1) (hs : 1 < s) (hsr : s ≤ r)
    (hD : 0 < D A s) : 0 < b - E * (b * E - Y) ∧ 0 < Y - b * E ∧ 0 < E * (r ^ 2 + A) - b * Y
      ∧ 0 < E * (s ^ 2 + A) - b * Y := by
  have hE := o.E_pos hb hA hs.le hsr hD
  have hY := o.Y_pos hb hA hs.le hsr hD
  have hRs := o.root_s hb hA hs.le hsr hD
  have hab := Orb.above_aux hb hA (hs.le.trans hsr) hs.le o.E2 (by have := o.sum; linarith)
  have hV := Orb.V_neg_aux hE hY hD hb hs.le hA hRs hab
  have hPs := o.P_pos hb hA hs.le hsr hs.le hD o.hPs hRs
  exact ⟨(Orb.signs_aux hE o.E_lt hD hb hs.le hA hPs hV hRs hab).2, by linarith,
    o.P_pos hb hA hs.le hsr (hs.le.trans hsr) (o.D_pos hb hA hs.le hsr hD) o.hPr o.root, hPs⟩

/-- the momenta at the two turning points of a marginal orbit -/
lemma marginal_key {r s z c v : ℝ} (hs : 1 < s) (hsr : s < r) (hz0 : 0 ≤ z) (hc : 0 ≤ c) (hc1 : c ≤ 1)
    (hT : 1 + s * z ≤ s + z)
    (cM : s * z * (r * s - c) = c * (r * s - c) + c * (r + s) * (s + z))
    (cv : v ^ 2 * (r * s - c) * (r + s + (s + z)) = (s + z) * ((r * s - c) ^ 2 + c * (r + s) ^ 2)) :
    (s ^ 2 + c) ^ 2 * r ^ 2 * (r ^ 2 + c + v ^ 2) ≤ (r ^ 2 + c) ^ 2 * s ^ 2 * (s ^ 2 + c + v ^ 2) := by
  have hr : 0 < r := by linarith
  have hs0 : 0 < s := by linarith
  have hg : 0 < r * s - c := by nlinarith
  have i1 : c * (r + s) ≤ r * s := by
    have h1 : c * (r + s) ≤ 1 * (r + s) := mul_le_mul_of_nonneg_right hc1 (by linarith)
    by_contra hcon
    have h2 : (r * s - c) * (1 + s * z) ≤ (r * s - c) * (s + z) := mul_le_mul_of_nonneg_left hT hg.le
    have h3 : 0 ≤ (s + z) * (r * s - c * (r + s)) - c * (s + z) - (r * s - c) * 1 - c * (r * s - c) := by
      linarith
    have h4 : (s + z) * (r * s - c * (r + s)) ≤ 0 := mul_nonpos_of_nonneg_of_nonpos (by linarith) (by linarith)
    have h5 : 0 ≤ c * (r * s - c) := by positivity
    nlinarith
  have i2 : c * ((r + s) + (s + z)) ≤ (s + z) * (r * s + c) := by
    have h6 : 1 ≤ s + z := by linarith
    have h7 : 0 ≤ r * s := by positivity
    have h8 : 1 * (r * s) ≤ (s + z) * (r * s) := mul_le_mul_of_nonneg_right h6 h7
    nlinarith
  have i3 : c * ((r * s - c) ^ 2 + c * (r + s) ^ 2) ≤ v ^ 2 * (r * s - c) * (r * s + c) := by
    have h6 : 0 < r + s + (s + z) := by linarith
    have h7 : 0 ≤ (r * s - c) ^ 2 + c * (r + s) ^ 2 := by positivity
    have h8 : (r + s + (s + z)) * (c * ((r * s - c) ^ 2 + c * (r + s) ^ 2))
        ≤ (r + s + (s + z)) * (v ^ 2 * (r * s - c) * (r * s + c)) := by
      have := mul_le_mul_of_nonneg_right i2 h7
      calc (r + s + (s + z)) * (c * ((r * s - c) ^ 2 + c * (r + s) ^ 2))
          = c * ((r + s) + (s + z)) * ((r * s - c) ^ 2 + c * (r + s) ^ 2) := by ring
        _ ≤ (s + z) * (r * s + c) * ((r * s - c) ^ 2 + c * (r + s) ^ 2) := this
        _ = (r * s + c) * ((s + z) * ((r * s - c) ^ 2 + c * (r + s) ^ 2)) := by ring
        _ = _ := by rw [← cv]; ring
    exact le_of_mul_le_mul_left h8 h6
  have e : (r ^ 2 + c) ^ 2 * s ^ 2 * (s ^ 2 + c + v ^ 2) - (s ^ 2 + c) ^ 2 * r ^ 2 * (r ^ 2 + c + v ^ 2)
      = (r - s) * (r + s) * (v ^ 2 * (r * s - c) * (r * s + c) - c * ((r * s - c) ^ 2 + c * (r + s) ^ 2)) := by ring
  have := mul_nonneg (mul_nonneg (show 0 ≤ r - s by linarith) (show 0 ≤ r + s by linarith)) (sub_nonneg.mpr i3)
  linarith

lemma marginal_alg {r s z c v P1 P2 m d1 d2 X1 X2 : ℝ} (hs : 1 < s) (hsr : s < r) (hsz : 0 < s - z) (hrz : 0 < r - z)
    (hc : 0 ≤ c) (hm : 0 < m) (hPr : 0 < P1) (hPs : 0 < P2) (hDr : 0 < d1) (hD : 0 < d2)
    (cmp : d2 * (r - z) ^ 2 ≤ d1 * (s - z) ^ 2)
    (key : (s ^ 2 + c) ^ 2 * r ^ 2 * (r ^ 2 + c + v ^ 2) ≤ (r ^ 2 + c) ^ 2 * s ^ 2 * (s ^ 2 + c + v ^ 2))
    (hRr' : P1 ^ 2 = d1 * (r ^ 2 + c + v ^ 2)) (hRs' : P2 ^ 2 = d2 * (s ^ 2 + c + v ^ 2))
    (B1 : (r ^ 2 + c + v ^ 2) * (s ^ 2 + c + v ^ 2) * X1 = P1 * P2 * (r + s) * ((r ^ 2 + c) * (s ^ 2 + c)) * m)
    (B2 : (s ^ 2 + c + v ^ 2) * (s ^ 2 + c + v ^ 2) * X2 = P2 * P2 * (s + s) * ((s ^ 2 + c) * (s ^ 2 + c)) * m) :
    r ^ 2 * (r - z) * X2 < 2 * s ^ 2 * (s - z) * X1 := by
  have hr : 0 < r := by linarith
  have hs0 : 0 < s := by linarith
  have hkr : 0 < r ^ 2 + c := by positivity
  have hks : 0 < s ^ 2 + c := by positivity
  have hkr' : 0 < r ^ 2 + c + v ^ 2 := by positivity
  have hks' : 0 < s ^ 2 + c + v ^ 2 := by positivity
  -- the inequality for the momenta
  have step1 : r ^ 2 * (r - z) * (s ^ 2 + c) * d2 * P1 ≤ r * s * (s - z) * (r ^ 2 + c) * d1 * P2 := by
    refine le_of_sq_le_sq ?_ (by positivity)
    calc (r ^ 2 * (r - z) * (s ^ 2 + c) * d2 * P1) ^ 2
        = r ^ 2 * d2 * d1 * (d2 * (r - z) ^ 2) * ((s ^ 2 + c) ^ 2 * r ^ 2 * (r ^ 2 + c + v ^ 2)) := by
          linear_combination (r ^ 2 * (r - z) * (s ^ 2 + c) * d2) ^ 2 * hRr'
      _ ≤ r ^ 2 * d2 * d1 * (d1 * (s - z) ^ 2) * ((r ^ 2 + c) ^ 2 * s ^ 2 * (s ^ 2 + c + v ^ 2)) :=
          mul_le_mul (mul_le_mul_of_nonneg_left cmp (by positivity)) key (by positivity) (by positivity)
      _ = (r * s * (s - z) * (r ^ 2 + c) * d1 * P2) ^ 2 := by
          linear_combination -(r * s * (s - z) * (r ^ 2 + c) * d1) ^ 2 * hRs'
  have step2 : r ^ 2 * (r - z) * (s ^ 2 + c) * d2 * P1 < s * (r + s) * (s - z) * (r ^ 2 + c) * d1 * P2 := by
    have : 0 < s * s * (s - z) * (r ^ 2 + c) * d1 * P2 := by positivity
    linarith
  -- back to the Jacobians
  have step3 : r ^ 2 * (r - z) * (s ^ 2 + c) * (P2 * (r ^ 2 + c + v ^ 2))
      < s * (r + s) * (s - z) * (r ^ 2 + c) * (P1 * (s ^ 2 + c + v ^ 2)) := by
    have : d1 * d2 * (r ^ 2 * (r - z) * (s ^ 2 + c) * (P2 * (r ^ 2 + c + v ^ 2)))
        < d1 * d2 * (s * (r + s) * (s - z) * (r ^ 2 + c) * (P1 * (s ^ 2 + c + v ^ 2))) := by
      calc d1 * d2 * (r ^ 2 * (r - z) * (s ^ 2 + c) * (P2 * (r ^ 2 + c + v ^ 2)))
          = P1 * P2 * (r ^ 2 * (r - z) * (s ^ 2 + c) * d2 * P1) := by
            linear_combination -(d2 * (r ^ 2 * (r - z) * (s ^ 2 + c) * P2)) * hRr'
        _ < P1 * P2 * (s * (r + s) * (s - z) * (r ^ 2 + c) * d1 * P2) := mul_lt_mul_of_pos_left step2 (by positivity)
        _ = d1 * d2 * (s * (r + s) * (s - z) * (r ^ 2 + c) * (P1 * (s ^ 2 + c + v ^ 2))) := by
            linear_combination (d1 * (s * (r + s) * (s - z) * (r ^ 2 + c) * P1)) * hRs'
    exact lt_of_mul_lt_mul_left this (by positivity)
  have fin : (r ^ 2 + c + v ^ 2) * (s ^ 2 + c + v ^ 2) ^ 2 * (r ^ 2 * (r - z) * X2)
      < (r ^ 2 + c + v ^ 2) * (s ^ 2 + c + v ^ 2) ^ 2 * (2 * s ^ 2 * (s - z) * X1) := by
    have f1 : (r ^ 2 + c + v ^ 2) * (s ^ 2 + c + v ^ 2) ^ 2 * (r ^ 2 * (r - z) * X2)
        = 2 * s * P2 * m * (s ^ 2 + c) * (r ^ 2 * (r - z) * (s ^ 2 + c) * (P2 * (r ^ 2 + c + v ^ 2))) := by
      linear_combination ((r ^ 2 + c + v ^ 2) * (r ^ 2 * (r - z))) * B2
    have f2 : (r ^ 2 + c + v ^ 2) * (s ^ 2 + c + v ^ 2) ^ 2 * (2 * s ^ 2 * (s - z) * X1)
        = 2 * s * P2 * m * (s ^ 2 + c) * (s * (r + s) * (s - z) * (r ^ 2 + c) * (P1 * (s ^ 2 + c + v ^ 2))) := by
      linear_combination ((s ^ 2 + c + v ^ 2) * (2 * s ^ 2 * (s - z))) * B1
    rw [f1, f2]
    exact mul_lt_mul_of_pos_left step3 (by positivity)
  exact lt_of_mul_lt_mul_left fin (by positivity)

/-- a root of the potential is not between the horizons -/
lemma D_root {A b E Y z : ℝ} (hb : b ^ 2 ≤ A) (hv : 0 < Y - b * E) (f : R A b E Y z = 0) : 0 ≤ D A z := by
  have h0 : 0 < (z ^ 2 + A - b ^ 2 + (Y - b * E) ^ 2) := by
    have := mul_pos hv hv
    have := sq_nonneg z
    linarith [sq (Y - b * E)]
  have h1 : 0 ≤ D A z * (z ^ 2 + A - b ^ 2 + (Y - b * E) ^ 2) := by
    unfold R at f
    linarith [sq_nonneg (E * (z ^ 2 + A) - b * Y)]
  exact nonneg_of_mul_nonneg_left h1 h0

set_option maxHeartbeats 1000000 in
/-- **The marginal orbit**: the Jacobians of the pair of turning points and of the double root. -/
lemma Pre.marginal {A b r s E Y : ℝ} (o : Pre A b r s E Y) (hb : b ^ 2 ≤ A) (hA : A ≤ 1) (hs : 1 < s) (hsr : s < r)
    (hD : 0 < D A s) (h0 : q A b E Y r s s = 0) :
    r ^ 2 * (r + s - iT E r s) * Br A b E Y s s < 2 * s ^ 2 * (s + s - iT E r s) * Br A b E Y r s
    ∧ 0 < s + s - iT E r s := by
  have hr : 0 < r := by linarith
  have hs0 : 0 < s := by linarith
  have hE2 := o.E2
  obtain ⟨hm, hv, hPr, hPs⟩ := Br_pre o hb hA hs hsr.le hD
  have hDr := o.D_pos hb hA hs.le hsr.le hD
  have hRs := o.root_s hb hA hs.le hsr.le hD
  have hRr := o.root
  have hDR : DR A b E Y s s = 0 := by rw [o.fac' hr hs0, h0, mul_zero]
  have B1 := Br_orbit o.root o.root'
  have B2 := Br_orbit hRs hDR
  obtain ⟨cM, cv⟩ := o.coeffs hr hs0
  have hT := o.T_ge hb hA hs hsr.le
  have hMs := o.M_le hb hA hs hsr.le
  have hM0 := o.M_nonneg hb hs hsr.le
  have hN : s ^ 2 - iT E r s * s + iM A b E Y r s = 0 := by
    rw [q_eq hE2 hr hs0, neg_eq_zero] at h0
    exact (mul_eq_zero.mp h0).resolve_left (by linarith)
  -- the innermost root
  obtain ⟨z, hz⟩ : ∃ z, z = iT E r s - s := ⟨_, rfl⟩
  have hzM : iM A b E Y r s = s * z := by rw [hz]; linarith
  have hz1 : z ≤ 1 := by
    rw [hzM] at hMs
    have : s * z ≤ s * 1 := by linarith
    exact le_of_mul_le_mul_left this hs0
  have hz0 : 0 ≤ z := by
    rw [hzM] at hM0
    exact nonneg_of_mul_nonneg_right hM0 hs0
  have hDz : 0 ≤ D A z := by
    have f := o.fac hr hs0 z
    rw [q_eq hE2 hr hs0, hzM] at f
    have : z ^ 2 - iT E r s * z + s * z = 0 := by rw [hz]; ring
    rw [this, mul_zero, neg_zero, mul_zero] at f
    exact D_root hb hv f
  have cmp := D_cmp hA hDz hz1 hs hsr.le
  have e1 : r + s - iT E r s = r - z := by rw [hz]; ring
  have e2 : s + s - iT E r s = s - z := by rw [hz]; ring
  have hTz : iT E r s = s + z := by rw [hz]; ring
  rw [e1, e2]
  have hsz : 0 < s - z := by linarith
  refine ⟨?_, hsz⟩
  have hrz : 0 < r - z := by linarith
  rw [hTz] at hT cM cv
  rw [hzM] at cM hT
  clear hN h0 hDR hz hTz hzM e1 e2 hMs hM0 o
  generalize Br A b E Y r s = X1 at *
  generalize Br A b E Y s s = X2 at *
  obtain ⟨c, hcd⟩ : ∃ c, c = A - b ^ 2 := ⟨_, rfl⟩
  obtain ⟨v, hvd⟩ : ∃ v, v = Y - b * E := ⟨_, rfl⟩
  have hc : 0 ≤ c := by linarith
  have hc1 : c ≤ 1 := by have := sq_nonneg b; clear B1 B2 cM cv cmp hRr hRs; linarith
  have hRr' : (E * (r ^ 2 + A) - b * Y) ^ 2 = D A r * (r ^ 2 + c + v ^ 2) := by
    have : R A b E Y r = (E * (r ^ 2 + A) - b * Y) ^ 2 - D A r * (r ^ 2 + c + v ^ 2) := by
      rw [hcd, hvd]; unfold R; ring
    linarith
  have hRs' : (E * (s ^ 2 + A) - b * Y) ^ 2 = D A s * (s ^ 2 + c + v ^ 2) := by
    have : R A b E Y s = (E * (s ^ 2 + A) - b * Y) ^ 2 - D A s * (s ^ 2 + c + v ^ 2) := by
      rw [hcd, hvd]; unfold R; ring
    linarith
  have g1 : ∀ t : ℝ, t ^ 2 + A - b ^ 2 = t ^ 2 + c := fun t => by rw [hcd]; ring
  rw [g1, g1] at B1
  rw [g1] at B2
  rw [← hcd] at cM cv
  rw [← hvd] at B1 B2 cv hv
  clear hRr hRs g1 hvd hb hE2
  generalize E * (r ^ 2 + A) - b * Y = P1 at *
  generalize E * (s ^ 2 + A) - b * Y = P2 at *
  generalize b - E * (b * E - Y) = m at *
  generalize D A r = d1 at *
  generalize D A s = d2 at *
  exact marginal_alg hs hsr hsz hrz hc hm hPr hPs hDr hD cmp (marginal_key hs hsr hz0 hc hc1 hT cM cv) hRr' hRs' B1 B2

end KGP.EMono
