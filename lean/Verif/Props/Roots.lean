import Verif.Lemmas.Radial
import Verif.Model.Orbit
import Mathlib.Topology.Order.IntermediateValue
import Mathlib.Topology.Algebra.Polynomial

/-! # C05, C08, C09, C30, C36: roots of the radial and polar potentials -/

namespace KGP

open Classical Real

/-! ## C30 -/

/-- **C30** four real roots: the returned labels are all the roots of `R`; each pair is ordered;
`(r1, r2)` is the outer pair when the second smallest root is at or below the inner horizon radius,
and the inner pair when it is above. -/
theorem C30_real (a E L Q r1 r2 r3 r4 : ℝ) (hE : E ^ 2 ≠ 1)
    (h : plungingRadialRoots a E L Q = .ok (.real r1 r2 r3 r4)) :
    Spec.RadialRoots a E L Q r1 r2 r3 r4 ∧ r2 ≤ r1 ∧ r4 ≤ r3 ∧
    ((r3 ≤ r2 ∧ r3 ≤ 1 - √(1 - a ^ 2)) ∨ (r1 ≤ r4 ∧ 1 - √(1 - a ^ 2) < r1)) := by
  rcases radial_cases (a := a) (L := L) (Q := Q) hE with
    ⟨s0, s1, s2, s3, h01, h12, h23, hR⟩ | ⟨s0, s1, u, v, h01, hv, hR⟩ | ⟨hR, hc, hr⟩
  · have hn := npRoots_radial_real (sub_ne_zero.mpr hE) hR h01 h12 h23
    rw [plungingRadialRoots, hn, labelPlungeRoots] at h
    simp only [realRoots_four h01 h12 h23] at h
    by_cases hc : s1 > 1 - √(1 - a ^ 2)
    · rw [if_pos hc] at h
      simp only [Except.ok.injEq, PlungeRoots.real.injEq] at h
      obtain ⟨rfl, rfl, rfl, rfl⟩ := h
      exact ⟨fun r => by rw [hR]; ring, h01, h23, .inr ⟨h12, hc⟩⟩
    · rw [if_neg hc] at h
      simp only [Except.ok.injEq, PlungeRoots.real.injEq] at h
      obtain ⟨rfl, rfl, rfl, rfl⟩ := h
      exact ⟨fun r => by rw [hR]; ring, h23, h01, .inl ⟨h12, not_lt.mp hc⟩⟩
  · obtain ⟨e1, e2⟩ := npRoots_radial_cplx (sub_ne_zero.mpr hE) hR h01 hv
    rw [plungingRadialRoots, labelPlungeRoots] at h
    simp only [e1, e2] at h
    simp at h
  · rw [plungingRadialRoots, labelPlungeRoots] at h
    simp only [hr] at h
    simp at h

/-- **C30** two complex roots: `r1 ≤ r2` are the real roots, `r3, r4` a conjugate pair, and together
they are all the roots of `R`. -/
theorem C30_complex (a E L Q r1 r2 : ℝ) (r3 r4 : ℂ) (hE : E ^ 2 ≠ 1)
    (h : plungingRadialRoots a E L Q = .ok (.cplx r1 r2 r3 r4)) :
    r1 ≤ r2 ∧ r3.im < 0 ∧ r4 = (starRingEnd ℂ) r3 ∧
    ∀ r, Spec.R a E L Q r
      = (1 - E ^ 2) * (r2 - r) * (r - r1) * ((r - r3.re) ^ 2 + r4.im ^ 2) := by
  rcases radial_cases (a := a) (L := L) (Q := Q) hE with
    ⟨s0, s1, s2, s3, h01, h12, h23, hR⟩ | ⟨s0, s1, u, v, h01, hv, hR⟩ | ⟨hR, hc, hr⟩
  · have hn := npRoots_radial_real (sub_ne_zero.mpr hE) hR h01 h12 h23
    rw [plungingRadialRoots, hn, labelPlungeRoots] at h
    simp only [realRoots_four h01 h12 h23] at h
    split_ifs at h <;> simp at h
  · obtain ⟨e1, e2⟩ := npRoots_radial_cplx (sub_ne_zero.mpr hE) hR h01 hv
    rw [plungingRadialRoots, labelPlungeRoots] at h
    simp only [e1, e2, Except.ok.injEq, PlungeRoots.cplx.injEq] at h
    obtain ⟨rfl, rfl, rfl, rfl⟩ := h
    refine ⟨h01, by simpa using hv, by apply Complex.ext <;> simp, fun r => ?_⟩
    rw [hR]; ring
  · rw [plungingRadialRoots, labelPlungeRoots] at h
    simp only [hr] at h
    simp at h

/-- **C30** consequently (for `E² < 1`) the radial potential is non-negative on the whole range of
the motion, whichever of the labellings was chosen. -/
theorem C30_motion_range (a E L Q : ℝ) (pr : PlungeRoots) (hE : E ^ 2 < 1)
    (h : plungingRadialRoots a E L Q = .ok pr) :
    match pr with
    | .real r1 r2 _ _ => ∀ r, r2 ≤ r → r ≤ r1 → 0 ≤ Spec.R a E L Q r
    | .cplx r1 r2 _ _ => ∀ r, r1 ≤ r → r ≤ r2 → 0 ≤ Spec.R a E L Q r := by
  have hb : 0 < 1 - E ^ 2 := by linarith
  match pr, h with
  | .real r1 r2 r3 r4, h =>
    obtain ⟨hR, h21, h43, hcase⟩ := C30_real a E L Q r1 r2 r3 r4 hE.ne h
    intro r hr2 hr1
    rw [hR]
    have h1 : 0 ≤ (1 - E ^ 2) * (r1 - r) * (r - r2) :=
      mul_nonneg (mul_nonneg hb.le (by linarith)) (by linarith)
    have h2 : 0 ≤ (r - r3) * (r - r4) := by
      rcases hcase with ⟨h, -⟩ | ⟨h, -⟩
      · exact mul_nonneg (by linarith) (by linarith)
      · exact mul_nonneg_of_nonpos_of_nonpos (by linarith) (by linarith)
    have := mul_nonneg h1 h2
    linarith
  | .cplx r1 r2 r3 r4, h =>
    obtain ⟨h12, -, -, hR⟩ := C30_complex a E L Q r1 r2 r3 r4 hE.ne h
    intro r hr1 hr2
    rw [hR]
    exact mul_nonneg (mul_nonneg (mul_nonneg hb.le (by linarith)) (by linarith)) (by positivity)

/-- **C30** with no real root the call fails (in Python: `UnboundLocalError`). -/
theorem C30_none (a E L Q : ℝ) (hE : E ^ 2 ≠ 1) (h : ∀ r, Spec.R a E L Q r ≠ 0) :
    plungingRadialRoots a E L Q = .error (.unboundLocal "r1") := by
  rcases radial_cases (a := a) (L := L) (Q := Q) hE with
    ⟨s0, s1, s2, s3, h01, h12, h23, hR⟩ | ⟨s0, s1, u, v, h01, hv, hR⟩ | ⟨hR, hc, hr⟩
  · exact absurd (by rw [hR]; simp) (h s0)
  · exact absurd (by rw [hR]; simp) (h s0)
  · rw [plungingRadialRoots, labelPlungeRoots, hr]

/-- **C30** marginally bound constants (`E² = 1`) are never accepted: the quartic degenerates to a
cubic with one or three real roots. -/
theorem C30_parabolic (a E L Q : ℝ) (hE : E ^ 2 = 1) :
    plungingRadialRoots a E L Q = .error (.unboundLocal "r1") := by
  have hdeg : (npPolyR (radialPoly a E L Q)).natDegree = 3 := by
    rw [radialPoly, npPolyR_five, hE]
    generalize -a ^ 2 * Q = c0
    generalize 2 * L ^ 2 + 2 * Q + 2 * a ^ 2 * 1 - 4 * a * E * L = c1
    generalize a ^ 2 * 1 - L ^ 2 - Q - a ^ 2 = c2
    rw [sub_self, Polynomial.C_0, zero_mul, add_zero]
    compute_degree!
  have hlen : (realRoots (npRoots (radialPoly a E L Q))).length
      + (complexRoots (npRoots (radialPoly a E L Q))).length = 3 := by
    have := (roots_perm (npRoots (radialPoly a E L Q))).length_eq
    rw [npRoots_length, hdeg] at this
    simpa using this.symm
  obtain ⟨k, hk⟩ := complexRoots_even (radialPoly a E L Q)
  rw [plungingRadialRoots, labelPlungeRoots]
  generalize realRoots (npRoots (radialPoly a E L Q)) = rr at *
  rcases rr with _ | ⟨s0, _ | ⟨s1, _ | ⟨s2, _ | ⟨s3, t⟩⟩⟩⟩
  · rfl
  · rfl
  · simp at hlen; omega
  · rfl
  · simp at hlen; omega

/-- **C30** conversely it returns as soon as `R` has a real root. -/
theorem C30_returns_iff (a E L Q : ℝ) (hE : E ^ 2 ≠ 1) :
    (plungingRadialRoots a E L Q).Returns ↔ ∃ r, Spec.R a E L Q r = 0 := by
  constructor
  · rintro ⟨pr, h⟩
    by_contra hne
    rw [C30_none a E L Q hE (fun r hr => hne ⟨r, hr⟩)] at h
    simp at h
  · rintro ⟨r, hr⟩
    rcases radial_cases (a := a) (L := L) (Q := Q) hE with
      ⟨s0, s1, s2, s3, h01, h12, h23, hR⟩ | ⟨s0, s1, u, v, h01, hv, hR⟩ | ⟨hR, hc, hr⟩
    · have hn := npRoots_radial_real (sub_ne_zero.mpr hE) hR h01 h12 h23
      rw [plungingRadialRoots, hn, labelPlungeRoots]
      simp only [realRoots_four h01 h12 h23]
      split_ifs <;> exact ⟨_, rfl⟩
    · obtain ⟨e1, e2⟩ := npRoots_radial_cplx (sub_ne_zero.mpr hE) hR h01 hv
      rw [plungingRadialRoots, labelPlungeRoots]
      simp only [e1, e2]
      exact ⟨_, rfl⟩
    · exact absurd ‹_› (hR r)

/-- **C30** and it always does so for a sub-extremal hole and bound energies `E² < 1`: `R` is a
square at the horizon and negative at infinity. -/
theorem C30_total (a E L Q : ℝ) (ha : a ^ 2 ≤ 1) (hE : E ^ 2 < 1) :
    (plungingRadialRoots a E L Q).Returns := by
  rw [C30_returns_iff a E L Q hE.ne]
  have hcont : Continuous (Spec.R a E L Q) :=
    continuous_iff_continuousAt.mpr fun r => (hasDerivAt_R a E L Q r).continuousAt
  have h0 := R_horizon_nonneg (E := E) (L := L) (Q := Q) (Delta_rPlus ha)
  -- a point where R is negative
  have hb : 0 < 1 - E ^ 2 := by linarith
  obtain ⟨B, hB⟩ : ∃ B, Spec.R a E L Q B < 0 := by
    by_contra hcon
    push Not at hcon
    rcases radial_cases (a := a) (L := L) (Q := Q) hE.ne with
      ⟨s0, s1, s2, s3, h01, h12, h23, hR⟩ | ⟨s0, s1, u, v, h01, hv, hR⟩ | ⟨hR, hc, hr⟩
    · have := hcon (s3 + 1)
      rw [hR] at this
      have h3 : 0 < (s3 + 1 - s0) * (s3 + 1 - s1) * (s3 + 1 - s2) * (s3 + 1 - s3) := by
        have : (0:ℝ) < s3 + 1 - s0 := by linarith
        have : (0:ℝ) < s3 + 1 - s1 := by linarith
        have : (0:ℝ) < s3 + 1 - s2 := by linarith
        have : (0:ℝ) < s3 + 1 - s3 := by linarith
        positivity
      nlinarith
    · have := hcon (s1 + 1)
      rw [hR] at this
      have h3 : 0 < (s1 + 1 - s0) * (s1 + 1 - s1) * ((s1 + 1 - u) ^ 2 + v ^ 2) := by
        have : (0:ℝ) < s1 + 1 - s0 := by linarith
        have : (0:ℝ) < s1 + 1 - s1 := by linarith
        positivity
      nlinarith
    · -- no zero and non-negative everywhere: contradiction with -(1-E²) r⁴ dominating
      set C := |2 * L ^ 2 + 2 * Q + 2 * a ^ 2 * E ^ 2 - 4 * a * E * L|
        + |a ^ 2 * E ^ 2 - L ^ 2 - Q - a ^ 2| + |a ^ 2 * Q| + 2 with hC
      have hCpos : 0 < C := by positivity
      have hr1 : (1:ℝ) ≤ 1 + C / (1 - E ^ 2) := by
        have : 0 ≤ C / (1 - E ^ 2) := by positivity
        linarith
      have := hcon (1 + C / (1 - E ^ 2))
      set r := 1 + C / (1 - E ^ 2) with hrdef
      have hbr : (1 - E ^ 2) * r = (1 - E ^ 2) + C := by rw [hrdef]; field_simp
      rw [R_expand] at this
      have hr3 : (1:ℝ) ≤ r ^ 3 := one_le_pow₀ hr1
      have hr13 : r ≤ r ^ 3 := by nlinarith
      have hr23 : r ^ 2 ≤ r ^ 3 := by nlinarith
      have b1 := le_abs_self (2 * L ^ 2 + 2 * Q + 2 * a ^ 2 * E ^ 2 - 4 * a * E * L)
      have b2 := le_abs_self (a ^ 2 * E ^ 2 - L ^ 2 - Q - a ^ 2)
      have b3 := neg_abs_le (a ^ 2 * Q)
      have t1 : (2 * L ^ 2 + 2 * Q + 2 * a ^ 2 * E ^ 2 - 4 * a * E * L) * r
          ≤ |2 * L ^ 2 + 2 * Q + 2 * a ^ 2 * E ^ 2 - 4 * a * E * L| * r ^ 3 :=
        mul_le_mul b1 hr13 (by linarith) (abs_nonneg _)
      have t2 : (a ^ 2 * E ^ 2 - L ^ 2 - Q - a ^ 2) * r ^ 2
          ≤ |a ^ 2 * E ^ 2 - L ^ 2 - Q - a ^ 2| * r ^ 3 :=
        mul_le_mul b2 hr23 (by positivity) (abs_nonneg _)
      have t3 : -(a ^ 2) * Q ≤ |a ^ 2 * Q| * r ^ 3 := by
        have := mul_le_mul_of_nonneg_left hr3 (abs_nonneg (a ^ 2 * Q))
        nlinarith
      have t4 : (E ^ 2 - 1) * r ^ 4 = -((1 - E ^ 2) + C) * r ^ 3 := by
        rw [← hbr]; ring
      rw [t4] at this
      have hbr3 : 0 < (1 - E ^ 2) * r ^ 3 := by positivity
      nlinarith
  obtain ⟨r, -, hr⟩ := intermediate_value_uIcc
    (a := 1 + √(1 - a ^ 2)) (b := B) (f := Spec.R a E L Q) hcont.continuousOn
    (show (0:ℝ) ∈ _ from Set.mem_uIcc.mpr (.inr ⟨hB.le, h0⟩))
  exact ⟨r, hr⟩

/-! ## C36 -/

/-- **C36** `True` exactly when all four roots are real, the second largest one is above the inner
horizon radius, and `r0` is (within `tol`) between the two largest ones. -/
theorem C36_true_iff (a E L Q tol : ℝ) (pos vel : Vec4) (hE : E ^ 2 ≠ 1) :
    icIsStable a pos vel (some (E, L, Q)) tol = .ok true ↔
    ∃ r1 r2 r3 r4, Spec.RadialRoots a E L Q r1 r2 r3 r4 ∧ r4 ≤ r3 ∧ r3 ≤ r2 ∧ r2 ≤ r1 ∧
      1 - √(1 - a ^ 2) < r2 ∧ r2 - tol ≤ pos.r ∧ pos.r ≤ r1 + tol := by
  have hred : icIsStable a pos vel (some (E, L, Q)) tol
      = classifyRoots a pos.r tol (npRoots (radialPoly a E L Q)) := rfl
  rw [hred]
  have hE' := sub_ne_zero.mpr hE
  constructor
  · intro h
    rcases radial_cases (a := a) (L := L) (Q := Q) hE with
      ⟨s0, s1, s2, s3, h01, h12, h23, hR⟩ | ⟨s0, s1, u, v, h01, hv, hR⟩ | ⟨hR, hc, hr⟩
    · rw [npRoots_radial_real hE' hR h01 h12 h23, classifyRoots] at h
      simp only [complexRoots_four, realRoots_four h01 h12 h23, List.length_nil] at h
      refine ⟨s3, s2, s1, s0, fun r => by rw [hR]; ring, h01, h12, h23, ?_⟩
      norm_num at h
      split_ifs at h with c1 c2 c3 <;> simp at h
      exact ⟨c2.1, by linarith [c2.2.2], c2.2.1⟩
    · obtain ⟨e1, e2⟩ := npRoots_radial_cplx hE' hR h01 hv
      rw [classifyRoots] at h
      simp [e2] at h
    · rw [classifyRoots] at h
      simp [hc] at h
  · rintro ⟨r1, r2, r3, r4, hR, h43, h32, h21, hm, hl, hu⟩
    rw [npRoots_radial_real hE' (s0 := r4) (s1 := r3) (s2 := r2) (s3 := r1)
      (fun r => by rw [hR]; ring) h43 h32 h21, classifyRoots]
    simp only [complexRoots_four, realRoots_four h43 h32 h21, List.length_nil]
    norm_num
    rw [if_neg (fun h => absurd h.1 (not_lt.mpr hm.le)), if_pos ⟨hm, hu, by linarith⟩]

/-- **C36** `False` for two complex roots, wherever the particle is. -/
theorem C36_two_complex (a E L Q tol s0 s1 u v : ℝ) (pos vel : Vec4) (hE : E ^ 2 ≠ 1)
    (hv : v ≠ 0)
    (hR : ∀ r, Spec.R a E L Q r = (1 - E ^ 2) * (s1 - r) * (r - s0) * ((r - u) ^ 2 + v ^ 2)) :
    icIsStable a pos vel (some (E, L, Q)) tol = .ok false := by
  have hred : icIsStable a pos vel (some (E, L, Q)) tol
      = classifyRoots a pos.r tol (npRoots (radialPoly a E L Q)) := rfl
  rw [hred]
  have hE' := sub_ne_zero.mpr hE
  have key : ∀ s0 s1 : ℝ, s0 ≤ s1 → (∀ r, Spec.R a E L Q r
      = (1 - E ^ 2) * (s1 - r) * (r - s0) * ((r - u) ^ 2 + v ^ 2)) →
      classifyRoots a pos.r tol (npRoots (radialPoly a E L Q)) = .ok false := by
    intro s0 s1 h01 hR
    obtain ⟨e1, e2⟩ := npRoots_radial_cplx (v := |v|) hE' (s0 := s0) (s1 := s1) (u := u)
      (fun r => by rw [hR, sq_abs]; ring) h01 (abs_pos.mpr hv)
    rw [classifyRoots]
    simp [e2]
  rcases le_total s0 s1 with h | h
  · exact key s0 s1 h hR
  · exact key s1 s0 h (fun r => by rw [hR]; ring)

/-- **C36** four complex roots are rejected with `ValueError`. -/
theorem C36_four_complex (a E L Q tol : ℝ) (pos vel : Vec4) (hE : E ^ 2 ≠ 1)
    (h : ∀ r, Spec.R a E L Q r ≠ 0) :
    (icIsStable a pos vel (some (E, L, Q)) tol).IsValueError := by
  have hred : icIsStable a pos vel (some (E, L, Q)) tol
      = classifyRoots a pos.r tol (npRoots (radialPoly a E L Q)) := rfl
  rw [hred]
  rcases radial_cases (a := a) (L := L) (Q := Q) hE with
    ⟨s0, s1, s2, s3, h01, h12, h23, hR⟩ | ⟨s0, s1, u, v, h01, hv, hR⟩ | ⟨hR, hc, hr⟩
  · exact absurd (by rw [hR]; simp) (h s0)
  · exact absurd (by rw [hR]; simp) (h s0)
  · exact ⟨"Not a physical orbit", by rw [classifyRoots]; simp [hc]⟩

/-- **C36** the complete decision table for four real roots `r4 ≤ r3 ≤ r2 ≤ r1`. -/
theorem C36_four_real (a E L Q tol r1 r2 r3 r4 : ℝ) (pos vel : Vec4) (hE : E ^ 2 ≠ 1)
    (hR : Spec.RadialRoots a E L Q r1 r2 r3 r4) (h43 : r4 ≤ r3) (h32 : r3 ≤ r2) (h21 : r2 ≤ r1) :
    let rm := 1 - √(1 - a ^ 2)
    let outer := r2 - tol ≤ pos.r ∧ pos.r ≤ r1 + tol
    let inner := r4 - tol ≤ pos.r ∧ pos.r ≤ r3 + tol
    let res := icIsStable a pos vel (some (E, L, Q)) tol
    (rm < r2 ∧ outer → res = .ok true) ∧
    (r2 < rm ∧ outer → res = .ok false) ∧
    (rm < r2 ∧ ¬ outer ∧ inner → res = .ok false) ∧
    (¬ outer ∧ ¬ inner → res.IsValueError) ∧
    (r2 ≤ rm ∧ ¬ outer → res.IsValueError) ∧
    (r2 = rm → res.IsValueError) := by
  have hE' := sub_ne_zero.mpr hE
  have hred : icIsStable a pos vel (some (E, L, Q)) tol
      = classifyRoots a pos.r tol (npRoots (radialPoly a E L Q)) := rfl
  intro rm outer inner res
  have hres : res = if r2 < rm ∧ pos.r ≤ r1 + tol ∧ pos.r ≥ r2 - tol then .ok false
      else if r2 > rm ∧ pos.r ≤ r1 + tol ∧ pos.r ≥ r2 - tol then .ok true
      else if r2 > rm ∧ pos.r ≤ r3 + tol ∧ pos.r ≥ r4 - tol then .ok false
      else .error (.valueError "Not a physical orbit") := by
    show icIsStable a pos vel (some (E, L, Q)) tol = _
    rw [hred, npRoots_radial_real hE' (s0 := r4) (s1 := r3) (s2 := r2) (s3 := r1)
      (fun r => by rw [hR]; ring) h43 h32 h21, classifyRoots]
    simp only [complexRoots_four, realRoots_four h43 h32 h21, List.length_nil]
    norm_num
    rfl
  have ho : outer ↔ (pos.r ≤ r1 + tol ∧ pos.r ≥ r2 - tol) := and_comm
  have hi : inner ↔ (pos.r ≤ r3 + tol ∧ pos.r ≥ r4 - tol) := and_comm
  rw [hres]; simp only [← ho, ← hi]
  refine ⟨fun h => ?_, fun h => ?_, fun h => ?_, fun h => ?_, fun h => ?_, fun h => ?_⟩
  · rw [if_neg (fun k => absurd k.1 (not_lt.mpr h.1.le)), if_pos h]
  · rw [if_pos h]
  · rw [if_neg (fun k => h.2.1 k.2), if_neg (fun k => h.2.1 k.2), if_pos ⟨h.1, h.2.2⟩]
  · rw [if_neg (fun k => h.1 k.2), if_neg (fun k => h.1 k.2), if_neg (fun k => h.2 k.2)]
    exact ⟨_, rfl⟩
  · rw [if_neg (fun k => h.2 k.2), if_neg (fun k => h.2 k.2), if_neg (fun k => absurd k.1 (by
      simpa using h.1))]
    exact ⟨_, rfl⟩
  · rw [if_neg (fun k => k.1.ne h), if_neg (fun k => k.1.ne' h), if_neg (fun k => k.1.ne' h)]
    exact ⟨_, rfl⟩

/-! ### Concrete cases for C30 and C36 (polar orbits of Kerr) -/

/-- `a = 2/3`, `E² = 35/38`, `L = 0`, `Q = 150/11` has four real roots `10/3`, `6`,
`8 ± √(5956/99)`. -/
lemma exampleFour : Spec.RadialRoots (2 / 3) (√(35 / 38)) 0 (150 / 11)
    (8 + √(5956 / 99)) 6 (10 / 3) (8 - √(5956 / 99)) := by
  intro r
  have hE : √(35 / 38) ^ 2 = (35 / 38 : ℝ) := Real.sq_sqrt (by norm_num)
  have hs : √(5956 / 99) ^ 2 = (5956 / 99 : ℝ) := Real.sq_sqrt (by norm_num)
  rw [R_expand]
  generalize √(35 / 38) = E at *
  generalize √(5956 / 99) = s at *
  linear_combination (8 / 9 * r + 4 / 9 * r ^ 2 + r ^ 4
    + (8 + s - r) * (r - 6) * (r - 10 / 3) * (r - (8 - s))) * hE
    - (3 / 38) * (r - 6) * (r - 10 / 3) * hs

lemma exampleFour_order : (8 - √(5956 / 99) : ℝ) ≤ 10 / 3 ∧ (6:ℝ) ≤ 8 + √(5956 / 99) ∧
    1 - √(1 - (2 / 3) ^ 2) < (10 / 3 : ℝ) := by
  have h1 : (7:ℝ) ≤ √(5956 / 99) := Real.le_sqrt_of_sq_le (by norm_num)
  have h2 := Real.sqrt_nonneg (1 - (2 / 3 : ℝ) ^ 2)
  exact ⟨by linarith, by linarith, by linarith⟩

/-- `C30_real` applies: the call returns the *inner* pair as `(r1, r2)`. -/
lemma examplePlungeReal : plungingRadialRoots (2 / 3) (√(35 / 38)) 0 (150 / 11)
    = .ok (.real (10 / 3) (8 - √(5956 / 99)) (8 + √(5956 / 99)) 6) := by
  obtain ⟨h1, h2, h3⟩ := exampleFour_order
  have hE : √(35 / 38) ^ 2 - 1 ≠ (0 : ℝ) := by
    rw [Real.sq_sqrt (by norm_num)]; norm_num
  rw [plungingRadialRoots, npRoots_radial_real hE (s0 := 8 - √(5956 / 99)) (s1 := 10 / 3)
    (s2 := 6) (s3 := 8 + √(5956 / 99)) (fun r => by rw [exampleFour]; ring) h1 (by norm_num) h2,
    labelPlungeRoots]
  simp only [realRoots_four h1 (show (10 / 3 : ℝ) ≤ 6 by norm_num) h2]
  rw [if_pos h3]

/-- `C36_true_iff` applies: a particle at `r = 7` is on a stable orbit. -/
example (t th ph : ℝ) (vel : Vec4) :
    icIsStable (2 / 3) ⟨t, 7, th, ph⟩ vel (some (√(35 / 38), 0, 150 / 11)) = .ok true := by
  obtain ⟨h1, h2, h3⟩ := exampleFour_order
  have h4 : (7:ℝ) ≤ √(5956 / 99) := Real.le_sqrt_of_sq_le (by norm_num)
  refine (C36_true_iff _ _ _ _ _ _ _ ?_).mpr ⟨_, _, _, _, exampleFour, h1, by norm_num, h2, ?_⟩
  · rw [Real.sq_sqrt (by norm_num)]; norm_num
  · refine ⟨by linarith, by norm_num, ?_⟩
    show (7:ℝ) ≤ 8 + √(5956 / 99) + 1e-4
    have : (0:ℝ) < 1e-4 := by norm_num
    linarith

/-- `a = 4/5`, `E² = 25/31`, `L = 0`, `Q = 2804/589` has the real roots `1/3`, `8` and a complex
pair. -/
lemma exampleTwo (r : ℝ) : Spec.R (4 / 5) (√(25 / 31)) 0 (2804 / 589) r
    = (1 - √(25 / 31) ^ 2) * (8 - r) * (r - 1 / 3) * ((r - 1) ^ 2 + √(2329 / 475) ^ 2) := by
  have hE : √(25 / 31) ^ 2 = (25 / 31 : ℝ) := Real.sq_sqrt (by norm_num)
  have hs : √(2329 / 475) ^ 2 = (2329 / 475 : ℝ) := Real.sq_sqrt (by norm_num)
  rw [R_expand, hs]
  generalize √(25 / 31) = E at *
  linear_combination (32 / 25 * r + 16 / 25 * r ^ 2 + r ^ 4
    + (8 - r) * (r - 1 / 3) * ((r - 1) ^ 2 + 2329 / 475)) * hE

/-- `C30_complex` and `C36_two_complex` apply to it. -/
lemma examplePlungeComplex : ∃ r3 r4, plungingRadialRoots (4 / 5) (√(25 / 31)) 0 (2804 / 589)
    = .ok (.cplx (1 / 3) 8 r3 r4) := by
  have hE : √(25 / 31) ^ 2 - 1 ≠ (0 : ℝ) := by rw [Real.sq_sqrt (by norm_num)]; norm_num
  obtain ⟨e1, e2⟩ := npRoots_radial_cplx hE (s0 := 1 / 3) (s1 := 8) (u := 1)
    (v := √(2329 / 475))
    (fun r => by rw [exampleTwo]; ring) (by norm_num) (Real.sqrt_pos.mpr (by norm_num))
  rw [plungingRadialRoots, labelPlungeRoots]
  simp only [e1, e2]
  exact ⟨_, _, rfl⟩

example (pos vel : Vec4) :
    icIsStable (4 / 5) pos vel (some (√(25 / 31), 0, 2804 / 589)) = .ok false :=
  C36_two_complex _ _ _ _ _ (1 / 3) 8 1 (√(2329 / 475)) pos vel
    (by rw [Real.sq_sqrt (by norm_num)]; norm_num) (Real.sqrt_ne_zero'.mpr (by norm_num)) exampleTwo

end KGP
