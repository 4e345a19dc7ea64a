import Verif.Lemmas.SepCurve
import Verif.Lemmas.SepParabola

/-!
# The separatrix polynomial has at most one zero in the inclination, and one in the spin at the equator
-/

namespace KGP.SepCurve

open Real

/-- `Af` increases strictly with `q`. -/
lemma Af_strictMono {ρ q q' r : ℝ} (hρ : 1 ≤ ρ) (hr : 1 < r) (hq : 0 ≤ q) (h : q < q') :
    Af ρ q r < Af ρ q' r := by
  have hder : ∀ t, 0 ≤ t → HasDerivAt (fun t => Af ρ t r) (2 * r * (kf ρ t r - 1) ^ 2 * (1 + ρ)
          * ((1 + ρ) * (ρ + t) * kf ρ t r - 2 * (1 + t)) / ((ρ + t + 2) ^ 3 * kf ρ t r)) t := by
    intro t ht
    refine (hasDerivAt_Af (q := fun t => t) (r := fun _ => r) (by linarith) (hf_pos hρ ht hr.le)
      (hasDerivAt_id t) (hasDerivAt_const t r)).congr_deriv ?_
    ring
  have hmono := strictMonoOn_of_deriv_pos (convex_Icc q q') (f := fun t => Af ρ t r)
    (fun t ht => (hder t (hq.trans ht.1)).continuousAt.continuousWithinAt) (by
      intro t ht
      have ht0 := hq.trans (interior_subset ht).1
      rw [(hder t ht0).deriv]
      have hk := kf_gt_one hρ ht0 hr
      have hk' : 0 < kf ρ t r - 1 := by linarith
      have h1 : 2 * (1 + t) < (1 + ρ) * (ρ + t) * kf ρ t r := by
        have e1 : 2 * (1 + t) ≤ (1 + ρ) * (ρ + t) := by nlinarith
        have : (1 + ρ) * (ρ + t) * 1 < (1 + ρ) * (ρ + t) * kf ρ t r :=
          mul_lt_mul_of_pos_left hk (by nlinarith)
        linarith
      apply div_pos
      · exact mul_pos (by positivity) (by linarith)
      · have : 0 < kf ρ t r := by linarith
        positivity)
  exact hmono (Set.left_mem_Icc.mpr h.le) (Set.right_mem_Icc.mpr h.le) h

/-- The innermost root determines `u`. -/
lemma q_strictMono {ρ u0 u1 : ℝ} (hρ : 1 ≤ ρ) (hu : 0 ≤ u0) (h : u0 < u1) (hu1 : u1 < 1)
    (hd0 : 0 < ρ - u0 * (ρ + 2)) (hd1 : 0 < ρ - u1 * (ρ + 2)) :
    u0 * (2 * ρ + 1 - u0) / (ρ - u0 * (ρ + 2)) < u1 * (2 * ρ + 1 - u1) / (ρ - u1 * (ρ + 2)) := by
  rw [div_lt_div_iff₀ hd0 hd1]
  have h1 : 0 < (u1 - u0) * (ρ * (2 * ρ + 1 - u0 - u1) + (ρ + 2) * (u0 * u1)) :=
    mul_pos (by linarith) (by
      have : 0 < ρ * (2 * ρ + 1 - u0 - u1) := mul_pos (by linarith) (by linarith)
      have : 0 ≤ (ρ + 2) * (u0 * u1) := by
        have : 0 ≤ u1 := by linarith
        positivity
      linarith)
  linarith

lemma zero_data {A ρ u r : ℝ} (hA1 : A < 1) (hρ : 1 ≤ ρ) (hr : 1 ≤ r) (hu : 0 ≤ u) (hur : u * r ^ 2 ≤ A)
    (hz : Sh A r ρ (ρ - u * (ρ + 2)) (u * (2 * ρ + 1 - u)) = 0) :
    u < 1 ∧ 0 < ρ - u * (ρ + 2) ∧ 0 ≤ u * (2 * ρ + 1 - u) / (ρ - u * (ρ + 2)) ∧ 1 < r
      ∧ A = Af ρ (u * (2 * ρ + 1 - u) / (ρ - u * (ρ + 2))) r := by
  have hr2 : 1 ≤ r ^ 2 := one_le_pow₀ hr
  have hult : u < 1 := by
    have := mul_le_mul_of_nonneg_left hr2 hu
    linarith
  have hnd : u * (2 * ρ + 1 - u) < ρ - u * (ρ + 2) := by
    by_contra hcon
    rcases eq_or_lt_of_le hu with h | h
    · rw [← h] at hcon; apply hcon; rw [zero_mul, zero_mul]; linarith
    · have := Sh_pos hρ hr hA1 h hur (not_lt.mp hcon)
      rw [hz] at this; exact lt_irrefl _ this
  have hn0 : 0 ≤ u * (2 * ρ + 1 - u) := mul_nonneg hu (by linarith)
  have hd0 : 0 < ρ - u * (ρ + 2) := by linarith
  rw [Sh_dehom hd0.ne'] at hz
  have hz2 := (mul_eq_zero.mp hz).resolve_left (pow_ne_zero 2 hd0.ne')
  have hq : 0 ≤ u * (2 * ρ + 1 - u) / (ρ - u * (ρ + 2)) := div_nonneg hn0 hd0.le
  have hAf := eq_Af hρ hq hr hA1.le hz2
  exact ⟨hult, hd0, hq, r_gt_one hρ hq hr hA1 hAf, hAf⟩

/-- For given spin and double root there is one inclination. -/
lemma u_unique {A ρ u0 u1 r : ℝ} (hA1 : A < 1) (hρ : 1 ≤ ρ) (hr : 1 ≤ r) (hu0 : 0 ≤ u0) (hu1 : 0 ≤ u1)
    (h0 : u0 * r ^ 2 ≤ A) (h1 : u1 * r ^ 2 ≤ A)
    (hz0 : Sh A r ρ (ρ - u0 * (ρ + 2)) (u0 * (2 * ρ + 1 - u0)) = 0)
    (hz1 : Sh A r ρ (ρ - u1 * (ρ + 2)) (u1 * (2 * ρ + 1 - u1)) = 0) : u0 = u1 := by
  obtain ⟨a1, a2, a3, a4, a5⟩ := zero_data hA1 hρ hr hu0 h0 hz0
  obtain ⟨b1, b2, b3, -, b5⟩ := zero_data hA1 hρ hr hu1 h1 hz1
  rcases lt_trichotomy u0 u1 with h | h | h
  · have := Af_strictMono hρ a4 a3 (q_strictMono hρ hu0 h b1 a2 b2)
    linarith
  · exact h
  · have := Af_strictMono hρ a4 b3 (q_strictMono hρ hu1 h a1 b2 a2)
    linarith

/-- The change of variables. -/
lemma exists_roots {e p : ℝ} (he : 0 ≤ e) (he1 : e < 1) (hp : 1 + e ≤ p) :
    ∃ ρ c r, 1 - e = c ∧ 1 + e = ρ * c ∧ p = ρ * c * r ∧ 1 ≤ ρ ∧ 0 < c ∧ 1 ≤ r := by
  have hc0 : 0 < 1 - e := by linarith
  have hf0 : 0 < 1 + e := by linarith
  refine ⟨(1 + e) / (1 - e), 1 - e, p / (1 + e), rfl, by field_simp, by field_simp, ?_, hc0, ?_⟩
  · rw [le_div_iff₀ hc0]; linarith
  · rw [le_div_iff₀ hf0]; linarith

open SepCert in
/-- **One inclination** (up to sign) for given `a`, `e` and marginal `p`. -/
lemma w_unique {A e p w0 w1 : ℝ} (hA : 0 < A) (hA1 : A < 1) (he : 0 ≤ e) (he1 : e < 1) (hp : 1 + e ≤ p)
    (hw0 : 0 ≤ w0) (hw01 : w0 ≤ 1) (hw1 : 0 ≤ w1) (hw11 : w1 ≤ 1)
    (hz0 : N p A e w0 ^ 2 - 8 * A * (1 - w0) * (M1 p A e w0 * M2 p A e w0) = 0)
    (hz1 : N p A e w1 ^ 2 - 8 * A * (1 - w1) * (M1 p A e w1 * M2 p A e w1) = 0) : w0 = w1 := by
  obtain ⟨ρ, c, r, hc, hρc, hpr, hρ, hc0, hr⟩ := exists_roots he he1 hp
  have hrp : 0 < r := by linarith
  have hK : 0 < (ρ ^ 2 * c ^ 3) ^ 4 := by positivity
  have key : ∀ w, 0 ≤ w → w ≤ 1 → N p A e w ^ 2 - 8 * A * (1 - w) * (M1 p A e w * M2 p A e w) = 0 →
      0 ≤ A * w / r ^ 2 ∧ A * w / r ^ 2 * r ^ 2 ≤ A
        ∧ Sh A r ρ (ρ - A * w / r ^ 2 * (ρ + 2)) (A * w / r ^ 2 * (2 * ρ + 1 - A * w / r ^ 2)) = 0 := by
    intro w h0 h1 hz
    have hu : A * w = A * w / r ^ 2 * r ^ 2 := by field_simp
    refine ⟨by positivity, ?_, ?_⟩
    · rw [← hu]; nlinarith
    · rw [S_eq hc hρc hpr hu] at hz
      exact (mul_eq_zero.mp hz).resolve_left (mul_pos hK (pow_pos hrp 6)).ne'
  obtain ⟨a1, a2, a3⟩ := key w0 hw0 hw01 hz0
  obtain ⟨b1, b2, b3⟩ := key w1 hw1 hw11 hz1
  have := u_unique hA1 hρ hr a1 b1 a2 b2 a3 b3
  have h2 : A * w0 = A * w1 := (div_left_inj' (pow_pos hrp 2).ne').mp this
  exact mul_left_cancel₀ hA.ne' h2

open SepCert in
/-- **One spin** (up to sign) for given `e` and marginal equatorial `p`. -/
lemma A_unique {A A' e p : ℝ} (hA : 0 ≤ A) (hA1 : A < 1) (hA' : 0 ≤ A') (hA1' : A' < 1) (he : 0 ≤ e) (he1 : e < 1)
    (hp : 1 + e ≤ p)
    (hz : N p A e 0 ^ 2 - 8 * A * (1 - 0) * (M1 p A e 0 * M2 p A e 0) = 0)
    (hz' : N p A' e 0 ^ 2 - 8 * A' * (1 - 0) * (M1 p A' e 0 * M2 p A' e 0) = 0) : A = A' := by
  obtain ⟨ρ, c, r, hc, hρc, hpr, hρ, hc0, hr⟩ := exists_roots he he1 hp
  have hrp : 0 < r := by linarith
  have hK : 0 < (ρ ^ 2 * c ^ 3) ^ 4 := by positivity
  have key : ∀ A, 0 ≤ A → A < 1 → N p A e 0 ^ 2 - 8 * A * (1 - 0) * (M1 p A e 0 * M2 p A e 0) = 0 →
      A = Af ρ 0 r := by
    intro A h0 h1 hz
    have hu : A * 0 = 0 * r ^ 2 := by ring
    rw [S_eq hc hρc hpr hu] at hz
    have h2 := (mul_eq_zero.mp hz).resolve_left (mul_pos hK (pow_pos hrp 6)).ne'
    have := (zero_data h1 hρ hr le_rfl (by rw [zero_mul]; exact h0) h2).2.2.2.2
    simpa using this
  rw [key A hA hA1 hz, key A' hA' hA1' hz']

end KGP.SepCurve

namespace KGP.SepParabola

open SepCert

/-- One inclination at `e = 1`. -/
lemma w_unique {A p w0 w1 : ℝ} (hA : 0 < A) (hA1 : A < 1) (hp : 2 ≤ p)
    (hw0 : 0 ≤ w0) (hw01 : w0 ≤ 1) (hw1 : 0 ≤ w1) (hw11 : w1 ≤ 1)
    (hz0 : N p A 1 w0 ^ 2 - 8 * A * (1 - w0) * (M1 p A 1 w0 * M2 p A 1 w0) = 0)
    (hz1 : N p A 1 w1 ^ 2 - 8 * A * (1 - w1) * (M1 p A 1 w1 * M2 p A 1 w1) = 0) : w0 = w1 := by
  obtain ⟨k, hk, rfl⟩ := exists_k hp
  have h0 := (S_zero_iff hA hA1 hw0 hw01 hk).mp hz0
  have h1 := (S_zero_iff hA hA1 hw1 hw11 hk).mp hz1
  unfold n at h0 h1
  have e1 : A * (w0 - w1) * (k ^ 3 * (3 * k - 4) + A) = 0 := by linear_combination h0 - h1
  rcases mul_eq_zero.mp e1 with h | h
  · have := (mul_eq_zero.mp h).resolve_left hA.ne'
    linarith
  · exfalso
    have e2 : 4 * k ^ 6 * (k - 1) ^ 2 = 0 := by linear_combination h0 - (A * w0 - k ^ 4) * h
    have hk6 : 4 * k ^ 6 ≠ 0 := by positivity
    have h3 := (mul_eq_zero.mp e2).resolve_left hk6
    have hk1 : k = 1 := by linarith [pow_eq_zero_iff (two_ne_zero) |>.mp h3]
    rw [hk1] at h
    linarith

/-- One spin at `e = 1`, on the equator. -/
lemma A_unique {A A' p : ℝ} (hA : 0 < A) (hA1 : A < 1) (hA' : 0 < A') (hA1' : A' < 1) (hp : 2 ≤ p)
    (hz : N p A 1 0 ^ 2 - 8 * A * (1 - 0) * (M1 p A 1 0 * M2 p A 1 0) = 0)
    (hz' : N p A' 1 0 ^ 2 - 8 * A' * (1 - 0) * (M1 p A' 1 0 * M2 p A' 1 0) = 0) : A = A' := by
  obtain ⟨k, hk, rfl⟩ := exists_k hp
  have h0 := (S_zero_iff hA hA1 le_rfl zero_le_one hk).mp hz
  have h1 := (S_zero_iff hA' hA1' le_rfl zero_le_one hk).mp hz'
  unfold n at h0 h1
  have e1 : k ^ 4 * (A - A') = 0 := by linear_combination h1 - h0
  have := (mul_eq_zero.mp e1).resolve_left (by positivity)
  linarith

end KGP.SepParabola

namespace KGP.SepCert

/-- For polar orbits the numerator decreases with the spin. -/
lemma N_polar_anti {A A' e p : ℝ} (hA : 0 ≤ A) (h : A < A') (he : 0 ≤ e) (he1 : e ≤ 1) (hp : 4 ≤ p) :
    N p A' e 1 < N p A e 1 := by
  have hK : 0 ≤ K e := K_nonneg he he1
  have e1 : N p A e 1 - N p A' e 1 = (A' - A) * (p ^ 3 * (p * (3 + 2 * e + 3 * e ^ 2) + 4 * K e)
      + (A + A') * (p * (1 + e) ^ 2 * (p * (3 - 2 * e + 3 * e ^ 2) - 2 * (1 - e) * (1 + e) * (3 - e)))
      + K e ^ 2 * (A ^ 2 + A * A' + A' ^ 2)) := by
    simp only [N, G, D, B, H, g, K]; ring
  have h0 : 0 < A' - A := by linarith
  have h1 : 0 ≤ p * (3 - 2 * e + 3 * e ^ 2) - 2 * (1 - e) * (1 + e) * (3 - e) := by
    have h2 : 0 ≤ (p - 4) * (3 - 2 * e + 3 * e ^ 2) := mul_nonneg (by linarith) (by nlinarith)
    have h3 : 0 ≤ e ^ 2 * (1 - e) := mul_nonneg (sq_nonneg e) (by linarith)
    nlinarith
  have h2 : 0 < p ^ 3 * (p * (3 + 2 * e + 3 * e ^ 2) + 4 * K e) := by positivity
  have h3 : 0 ≤ (A + A') * (p * (1 + e) ^ 2 * (p * (3 - 2 * e + 3 * e ^ 2) - 2 * (1 - e) * (1 + e) * (3 - e))) :=
    mul_nonneg (by linarith) (mul_nonneg (by positivity) h1)
  have h4 : 0 ≤ K e ^ 2 * (A ^ 2 + A * A' + A' ^ 2) := by
    have : 0 ≤ A' := by linarith
    positivity
  have := mul_pos h0 (by linarith : 0 < p ^ 3 * (p * (3 + 2 * e + 3 * e ^ 2) + 4 * K e)
      + (A + A') * (p * (1 + e) ^ 2 * (p * (3 - 2 * e + 3 * e ^ 2) - 2 * (1 - e) * (1 + e) * (3 - e)))
      + K e ^ 2 * (A ^ 2 + A * A' + A' ^ 2))
  linarith

end KGP.SepCert
