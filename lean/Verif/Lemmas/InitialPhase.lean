import Verif.Lemmas.PolarSol
import Verif.Model.InitialConditions

/-!
# The phases computed from an initial position invert the radial and polar solutions
-/

namespace KGP

open Classical Real

lemma ellipkinc_mem {m : ℝ} (hm : m < 1) {φ : ℝ} (h0 : 0 < φ) (h1 : φ < π / 2) :
    0 < ellipkinc φ m ∧ ellipkinc φ m < ellipk m := by
  constructor
  · have := ellipkinc_strictMono hm h0
    simpa using this
  · exact ellipkinc_strictMono hm h1

/-- `y²` of initial_conditions.py:217 -/
lemma RootsConfig.y_sq {r1 r2 r3 r4 r0 : ℝ} (H : RootsConfig r1 r2 r3 r4) (h2 : r2 < r0)
    (h1 : r0 < r1) :
    let Y := (r1 - r3) * (r0 - r2) / ((r1 - r2) * (r0 - r3))
    0 < Y ∧ Y < 1 ∧ rOf r1 r2 r3 Y = r0 := by
  intro Y
  have h13 := H.ne13
  have h23 := H.ne23
  have h12 : 0 < r1 - r2 := by linarith
  have hc : (0 < r1 - r3 ∧ 0 < r0 - r3 ∧ 0 < r2 - r3)
      ∨ (r1 - r3 < 0 ∧ r0 - r3 < 0 ∧ r2 - r3 < 0) := by
    obtain ⟨a1, a2, h | h⟩ := H
    · left; refine ⟨?_, ?_, ?_⟩ <;> linarith
    · right; refine ⟨?_, ?_, ?_⟩ <;> linarith
  have h03 : r0 - r3 ≠ 0 := by
    rcases hc with h | h
    · exact h.2.1.ne'
    · exact h.2.1.ne
  have hY1 : 1 - Y = (r1 - r0) * ((r2 - r3) / ((r1 - r2) * (r0 - r3))) := by
    simp only [Y]; field_simp; ring
  have hq : 0 < (r2 - r3) / (r0 - r3) := by
    rcases hc with h | h
    · exact div_pos h.2.2 h.2.1
    · exact div_pos_of_neg_of_neg h.2.2 h.2.1
  have hq' : 0 < (r1 - r3) / (r0 - r3) := by
    rcases hc with h | h
    · exact div_pos h.1 h.2.1
    · exact div_pos_of_neg_of_neg h.1 h.2.1
  refine ⟨?_, ?_, ?_⟩
  · have : Y = (r1 - r3) / (r0 - r3) * ((r0 - r2) / (r1 - r2)) := by simp only [Y]; field_simp
    rw [this]
    exact mul_pos hq' (div_pos (by linarith) h12)
  · have : 1 - Y = (r2 - r3) / (r0 - r3) * ((r1 - r0) / (r1 - r2)) := by rw [hY1]; field_simp
    have hp : 0 < 1 - Y := by rw [this]; exact mul_pos hq (div_pos (by linarith) h12)
    linarith
  · have e1 : (r1 - r2) * Y = (r1 - r3) * (r0 - r2) / (r0 - r3) := by simp only [Y]; field_simp
    unfold rOf
    have e2 : r3 * (r1 - r2) * Y - r2 * (r1 - r3) = r0 * ((r1 - r2) * Y - (r1 - r3)) := by
      rw [mul_assoc, e1]; field_simp; ring
    have hne : (r1 - r2) * Y - (r1 - r3) ≠ 0 := by
      have : (r1 - r2) * Y - (r1 - r3) = (r1 - r3) * (r3 - r2) / (r0 - r3) := by
        rw [e1]; field_simp; ring
      rw [this]
      exact div_ne_zero (mul_ne_zero h13 (by intro h; apply h23; linarith)) h03
    rw [e2, mul_div_cancel_right₀ _ hne]

/-- The radial phase of a position strictly between the turning points and not within the
tolerance of one of them. -/
lemma initialPhaseR_inverts {E L Q r1 r2 r3 r4 r0 dr0 tol : ℝ} {passed : Roots4}
    (H : RootsConfig r1 r2 r3 r4) (hE : 0 < 1 - E ^ 2)
    (hU : rFrequencyCore E passed = rFrequencyCore E (r1, r2, r3, r4))
    (h2 : r2 < r0) (h1 : r0 < r1) (n2 : tol ≤ |r0 - r2|) (n1 : tol ≤ |r0 - r1|) :
    let q := initialPhaseR (E, L, Q) passed (r1, r2, r3, r4) r0 dr0 tol none
    rOf r1 r2 r3 (sin (amR (mR r1 r2 r3 r4) q) ^ 2) = r0
    ∧ (0 < dr0 → 0 < sin q) ∧ (dr0 ≤ 0 → sin q < 0) := by
  intro q
  have hm := H.mR_lt
  have hpi := Real.pi_pos
  obtain ⟨hY0, hY1, hYr⟩ := H.y_sq h2 h1
  obtain ⟨Y, hY⟩ : ∃ Y, Y = (r1 - r3) * (r0 - r2) / ((r1 - r2) * (r0 - r3)) := ⟨_, rfl⟩
  rw [← hY] at hY0 hY1 hYr
  obtain ⟨φ, hφ⟩ : ∃ φ, φ = arcsin (√Y) := ⟨_, rfl⟩
  have hs0 : 0 < √Y := Real.sqrt_pos.mpr hY0
  have hs1 : √Y < 1 := by rw [show (1:ℝ) = √1 by simp]; exact Real.sqrt_lt_sqrt hY0.le hY1
  have hφ0 : 0 < φ := by rw [hφ]; exact Real.arcsin_pos.mpr hs0
  have hφ1 : φ < π / 2 := by rw [hφ]; exact Real.arcsin_lt_pi_div_two.mpr hs1
  have hsin : sin φ ^ 2 = Y := by
    rw [hφ, Real.sin_arcsin (by linarith) hs1.le, Real.sq_sqrt hY0.le]
  obtain ⟨F, hF⟩ : ∃ F, F = ellipkinc φ (mR r1 r2 r3 r4) := ⟨_, rfl⟩
  obtain ⟨K, hK⟩ : ∃ K, K = ellipk (mR r1 r2 r3 r4) := ⟨_, rfl⟩
  have hFK := ellipkinc_mem hm hφ0 hφ1
  rw [← hF, ← hK] at hFK
  have hK0 : 0 < K := by linarith
  have hprod : 1 / √(1 - E ^ 2) * 2 / √((r1 - r3) * (r2 - r4)) * F
      * rFrequencyCore E (r1, r2, r3, r4) = π * F / K := by
    rw [rFrequencyCore_eq H, mul_assoc (1 - E ^ 2), Real.sqrt_mul hE.le, ← hK]
    have e1 := (Real.sqrt_pos.mpr hE).ne'
    have e2 := (Real.sqrt_pos.mpr H.pos13_24).ne'
    field_simp
  have hqdef : q = if dr0 > 0 then π * F / K else 2 * π - π * F / K := by
    simp only [q, initialPhaseR, if_neg (not_lt.mpr n2), if_neg (not_lt.mpr n1), hU, H.sq_k, ← hY,
      ← hφ, ← hF, hprod]
  have hlt : π * F / K < π := by
    rw [div_lt_iff₀ hK0]; exact mul_lt_mul_of_pos_left hFK.2 hpi
  have hgt : 0 < π * F / K := by have := hFK.1; positivity
  have hamF : jacobiAm F (mR r1 r2 r3 r4) = φ := by rw [hF]; exact am_ellipkinc hm φ
  by_cases hd : 0 < dr0
  · rw [hqdef, if_pos hd]
    refine ⟨?_, fun _ => Real.sin_pos_of_pos_of_lt_pi hgt hlt, fun h => absurd hd (not_lt.mpr h)⟩
    have : amR (mR r1 r2 r3 r4) (π * F / K) = φ := by
      unfold amR
      rw [← hK, show K * (π * F / K) / π = F by field_simp, hamF]
    rw [this, hsin, hYr]
  · rw [hqdef, if_neg hd]
    refine ⟨?_, fun h => absurd h hd, fun _ => ?_⟩
    · have : amR (mR r1 r2 r3 r4) (2 * π - π * F / K) = π - φ := by
        unfold amR
        rw [← hK, show K * (2 * π - π * F / K) / π = 2 * K - F by field_simp, hK,
          am_two_K_sub hm, hamF]
      rw [this, Real.sin_pi_sub, hsin, hYr]
    · rw [Real.sin_two_pi_sub, neg_lt_zero]
      exact Real.sin_pos_of_pos_of_lt_pi hgt hlt

/-- Near a turning point the phase is `0` or `π`. -/
lemma initialPhaseR_near {E L Q r1 r2 r3 r4 r0 dr0 tol : ℝ} {passed : Roots4} :
    (|r0 - r2| < tol →
      initialPhaseR (E, L, Q) passed (r1, r2, r3, r4) r0 dr0 tol none = 0)
    ∧ (tol ≤ |r0 - r2| → |r0 - r1| < tol →
      initialPhaseR (E, L, Q) passed (r1, r2, r3, r4) r0 dr0 tol none = π) := by
  refine ⟨fun h => ?_, fun h h' => ?_⟩
  · simp only [initialPhaseR, if_pos h]
  · simp only [initialPhaseR, if_neg (not_lt.mpr h), if_pos h']

lemma initialPhaseThetaBranch_eq (θ0 dθ0 lam u : ℝ) :
    initialPhaseThetaBranch θ0 dθ0 lam u
      = if dθ0 < 0 then lam * u + 3 * π / 2 else π / 2 - lam * u := by
  unfold initialPhaseThetaBranch
  by_cases h : dθ0 < 0
  · have h1 : ¬ (dθ0 ≥ 0) := not_le.mpr h
    have h2 : ¬ (dθ0 = 0 ∧ θ0 = π / 2) := fun h2 => h.ne h2.1
    simp only [if_pos h, if_neg h1, if_neg h2]
  · simp only [if_neg h, if_pos (not_lt.mp h)]

/-- The polar phase, off the turning points. -/
lemma polarPhase_inverts {m s θ0 dθ0 lam u : ℝ} (hm : m < 1) (hs : 0 < s)
    (hc : |cos θ0| ≤ s) (hprod : lam * u = π * ellipkinc (arcsin (cos θ0 / s)) m / (2 * ellipk m)) :
    let q := initialPhaseThetaBranch θ0 dθ0 lam u
    s * sin (amT m q) = cos θ0
      ∧ (|cos θ0| < s → (dθ0 < 0 → sin q < 0) ∧ (0 ≤ dθ0 → 0 < sin q)) := by
  intro q
  have hpi := Real.pi_pos
  obtain ⟨hlo, hhi⟩ := abs_le.mp hc
  have hy1 : cos θ0 / s ≤ 1 := by rw [div_le_one hs]; exact hhi
  have hy0 : -1 ≤ cos θ0 / s := by rw [le_div_iff₀ hs]; linarith
  obtain ⟨φ, hφ⟩ : ∃ φ, φ = arcsin (cos θ0 / s) := ⟨_, rfl⟩
  have hsin : s * sin φ = cos θ0 := by
    rw [hφ, Real.sin_arcsin hy0 hy1]; field_simp
  obtain ⟨F, hF⟩ : ∃ F, F = ellipkinc φ m := ⟨_, rfl⟩
  obtain ⟨K, hK⟩ : ∃ K, K = ellipk m := ⟨_, rfl⟩
  rw [← hφ, ← hF, ← hK] at hprod
  have hK0 : 0 < K := by rw [hK]; exact ellipk_pos hm
  have hamF : jacobiAm F m = φ := by rw [hF]; exact am_ellipkinc hm φ
  have hcos : |cos θ0| < s → 0 < cos (π * F / (2 * K)) := by
    intro hlt
    obtain ⟨hlo, hhi⟩ := abs_lt.mp hlt
    have hφ0 : -(π / 2) < φ := by
      rw [hφ]; exact Real.neg_pi_div_two_lt_arcsin.mpr (by rw [lt_div_iff₀ hs]; linarith)
    have hφ1 : φ < π / 2 := by
      rw [hφ]; exact Real.arcsin_lt_pi_div_two.mpr (by rw [div_lt_one hs]; exact hhi)
    have hF1 : F < K := by rw [hF, hK]; exact ellipkinc_strictMono hm hφ1
    have hF0 : -K < F := by
      have := ellipkinc_strictMono hm hφ0
      simp only [ellipkinc_neg hm, ellipkinc_half_pi] at this
      rw [hF, hK]; exact this
    have hc1 : π * F / (2 * K) < π / 2 := by
      rw [div_lt_div_iff₀ (by positivity) (by norm_num)]; nlinarith
    have hc0 : -(π / 2) < π * F / (2 * K) := by
      rw [← neg_div, div_lt_div_iff₀ (by norm_num) (by positivity)]; nlinarith
    exact Real.cos_pos_of_mem_Ioo ⟨hc0, hc1⟩
  have hq : q = if dθ0 < 0 then π * F / (2 * K) + 3 * π / 2 else π / 2 - π * F / (2 * K) := by
    simp only [q, initialPhaseThetaBranch_eq, hprod]
  by_cases hd : dθ0 < 0
  · rw [hq, if_pos hd]
    refine ⟨?_, fun hlt => ⟨fun _ => ?_, fun h => absurd h (not_le.mpr hd)⟩⟩
    · unfold amT
      have := am_add_int hm F 2
      push_cast at this
      rw [← hK] at this ⊢
      rw [show 2 / π * K * (π * F / (2 * K) + 3 * π / 2 + π / 2) = F + 2 * 2 * K by field_simp; ring,
        this, Real.sin_add_two_pi, hamF, hsin]
    · rw [show π * F / (2 * K) + 3 * π / 2 = (π * F / (2 * K) + π / 2) + π by ring, Real.sin_add_pi,
        Real.sin_add_pi_div_two]
      linarith [hcos hlt]
  · rw [hq, if_neg hd]
    refine ⟨?_, fun hlt => ⟨fun h => absurd h hd, fun _ => ?_⟩⟩
    · unfold amT
      rw [← hK, show 2 / π * K * (π / 2 - π * F / (2 * K) + π / 2) = 2 * K - F by field_simp; ring, hK,
        am_two_K_sub hm, hamF, Real.sin_pi_sub, hsin]
    · rw [Real.sin_pi_div_two_sub]; exact hcos hlt

lemma initialPhaseTheta_inverts {a E L Q zm zp θ0 dθ0 tol : ℝ} {passed : Roots4}
    (H : PolarConfig a E L Q zm zp) (ha : a ≠ 0) (hc : cos θ0 ^ 2 < zm)
    (n1 : tol ≤ |θ0 - arccos (√zm)|) (n2 : tol ≤ |θ0 - (π - arccos (√zm))|) :
    let q := initialPhaseTheta a (E, L, Q) passed (zm, zp) θ0 dθ0 tol none
    √zm * sin (amT (mT a zm zp) q) = cos θ0 ∧ (dθ0 < 0 → sin q < 0) ∧ (0 ≤ dθ0 → 0 < sin q) := by
  intro q
  have hz : 0 < zm := lt_of_le_of_lt (sq_nonneg _) hc
  have hm := H.mT_lt
  have habs : |cos θ0| < √zm := by
    rw [← Real.sqrt_sq_eq_abs]; exact Real.sqrt_lt_sqrt (sq_nonneg _) hc
  have hq : q = initialPhaseThetaBranch θ0 dθ0
      (1 / (L * √(e0zpOf a E L zm)) * ellipkinc (arcsin (cos θ0 / √zm)) (mT a zm zp))
      (π * L * √(e0zpOf a E L zm) / (2 * ellipk (mT a zm zp))) := by
    simp only [q, initialPhaseTheta, if_neg (not_lt.mpr n1), if_neg (not_lt.mpr n2),
      thetaFrequencyFromConstants, if_neg ha, thetaFrequencyCore, H.sq_k' ha]
  rw [hq]
  obtain ⟨k1, k2⟩ := polarPhase_inverts (dθ0 := dθ0) (θ0 := θ0)
    (lam := 1 / (L * √(e0zpOf a E L zm)) * ellipkinc (arcsin (cos θ0 / √zm)) (mT a zm zp))
    (u := π * L * √(e0zpOf a E L zm) / (2 * ellipk (mT a zm zp))) hm (Real.sqrt_pos.mpr hz) habs.le (by
      have h1 := H.hL
      have h2 := (Real.sqrt_pos.mpr H.e0zp_pos).ne'
      have h3 := (ellipk_pos hm).ne'
      field_simp)
  exact ⟨k1, k2 habs⟩

lemma initialPhaseTheta_near {a E L Q zm zp θ0 dθ0 tol : ℝ} {passed : Roots4} :
    (|θ0 - arccos (√zm)| < tol →
      initialPhaseTheta a (E, L, Q) passed (zm, zp) θ0 dθ0 tol none = 0)
    ∧ (tol ≤ |θ0 - arccos (√zm)| → |θ0 - (π - arccos (√zm))| < tol →
      initialPhaseTheta a (E, L, Q) passed (zm, zp) θ0 dθ0 tol none = π) := by
  refine ⟨fun h => ?_, fun h h' => ?_⟩
  · simp only [initialPhaseTheta, if_pos h]
  · simp only [initialPhaseTheta, if_neg (not_lt.mpr h), if_pos h']

/-- Reversing the order of the roots (numpy's ascending order) does not change the frequency. -/
lemma rFrequencyCore_reverse (E r1 r2 r3 r4 : ℝ) :
    rFrequencyCore E (r4, r3, r2, r1) = rFrequencyCore E (r1, r2, r3, r4) := by
  have e1 : (1 - E ^ 2) * (r4 - r2) * (r3 - r1) = (1 - E ^ 2) * (r1 - r3) * (r2 - r4) := by ring
  have e2 : (r4 - r3) * (r2 - r1) / ((r4 - r2) * (r3 - r1))
      = (r1 - r2) * (r3 - r4) / ((r1 - r3) * (r2 - r4)) := by congr 1 <;> ring
  simp only [rFrequencyCore, kR, e1, e2]

end KGP
