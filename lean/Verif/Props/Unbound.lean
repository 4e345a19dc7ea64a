import Verif.Props.RoundTrip
import Verif.Props.Classify
import Verif.Props.StableIff
import Verif.Props.Marginal
import Verif.Props.KerrOrbits

/-!
# C75: `Orbit` never presents an unbound geodesic as a stable orbit
-/

namespace KGP

open Classical Real

/-- The two numbers unpacked from the roots of the polar polynomial factor it, in increasing order. -/
lemma polar_of_numpy {a E L Q z1 z2 : ℝ} (ha : a ≠ 0) (h : polarRootsNumpy a E L Q = .ok (z1, z2)) :
    z1 ≤ z2 ∧ Spec.PolarRoots a E L Q z1 z2 := by
  unfold polarRootsNumpy at h
  simp only [if_neg ha] at h
  split at h
  · rename_i z w hr
    split_ifs at h with hi
    have h := Except.ok.inj h
    simp only [Prod.mk.injEq] at h
    obtain ⟨hz, hw⟩ := h
    have ez : z = (z1 : ℂ) := Complex.ext (by simpa using hz) (by simpa using hi.1)
    have ew : w = (z2 : ℂ) := Complex.ext (by simpa using hw) (by simpa using hi.2)
    subst ez ew
    have hs : (npRoots (polarPoly a E L Q)).Pairwise lexLe := Multiset.pairwise_sort _ _
    rw [hr] at hs
    have h12 : lexLe (z1 : ℂ) (z2 : ℂ) := by simpa using hs
    refine ⟨?_, ?_⟩
    · rcases h12 with h | ⟨h, -⟩
      · exact le_of_lt (by simpa using h)
      · exact le_of_eq (by simpa using h)
    · have key : ∀ r : ℝ, Spec.Zpol a E L Q r
          = (npPolyR (polarPoly a E L Q)).leadingCoeff * ((r - z1) * (r - z2)) := by
        intro r
        have h1 := eval_npPoly_eq (polarPoly a E L Q) (r : ℂ)
        rw [eval_npPoly_ofReal, eval_npPolyR_polar, leadingCoeff_npPoly, hr] at h1
        simp only [List.map_cons, List.map_nil, List.prod_cons, List.prod_nil, mul_one] at h1
        exact_mod_cast h1
      intro r
      rw [key]
      generalize (npPolyR (polarPoly a E L Q)).leadingCoeff = l at key ⊢
      have k0 := key 0
      have k1 := key 1
      have k2 := key (-1)
      unfold Spec.Zpol at k0 k1 k2
      have hl : l = a ^ 2 * (1 - E ^ 2) := by linear_combination k0 - (k1 + k2) / 2
      rw [hl]; ring
  · simp at h

/-- If the four radial roots can be unpacked, the polynomial has degree four and these are its roots. -/
lemma radial_of_numpy {a E L Q r1 r2 r3 r4 : ℝ} (h : radialRootsNumpy a E L Q = .ok (r4, r3, r2, r1)) :
    E ^ 2 ≠ 1 ∧ npRoots (radialPoly a E L Q) = [(r4 : ℂ), (r3 : ℂ), (r2 : ℂ), (r1 : ℂ)] := by
  unfold radialRootsNumpy at h
  split at h
  · rename_i w4 w3 w2 w1 hr
    split_ifs at h with hi
    have h := Except.ok.inj h
    simp only [Prod.mk.injEq] at h
    obtain ⟨h4, h3, h2, h1⟩ := h
    refine ⟨?_, ?_⟩
    · intro hE
      have hlen := npRoots_length (radialPoly a E L Q)
      rw [hr] at hlen
      have hd : (npPolyR (radialPoly a E L Q)).natDegree ≤ 3 := by
        unfold radialPoly
        rw [npPolyR_five, hE, sub_self, Polynomial.C_0, zero_mul, add_zero]
        compute_degree
      simp at hlen
      omega
    · rw [hr]
      have e4 : w4 = (r4 : ℂ) := Complex.ext (by simpa using h4) (by simpa using hi.1)
      have e3 : w3 = (r3 : ℂ) := Complex.ext (by simpa using h3) (by simpa using hi.2.1)
      have e2 : w2 = (r2 : ℂ) := Complex.ext (by simpa using h2) (by simpa using hi.2.2.1)
      have e1 : w1 = (r1 : ℂ) := Complex.ext (by simpa using h1) (by simpa using hi.2.2.2)
      rw [e4, e3, e2, e1]
  · simp at h

/-- `Q + (L - aE)² ≥ 0` for the constants of any initial velocity. -/
lemma carter_total_nonneg {a E L Q : ℝ} {pos vel : Vec4} (hs : sin pos.theta ≠ 0)
    (hc : constantsFromInitialConditions a pos vel = .ok (E, L, Q)) : 0 ≤ (L - a * E) ^ 2 + Q := by
  unfold constantsFromInitialConditions at hc
  obtain ⟨⟨E', L'⟩, -, hc⟩ := bind_eq_ok.mp hc
  have hc := Except.ok.inj hc
  simp only [Prod.mk.injEq] at hc
  obtain ⟨rfl, rfl, hQ⟩ := hc
  have h1 : 1 - cos pos.theta ^ 2 = sin pos.theta ^ 2 := by rw [Real.sin_sq]
  rw [h1] at hQ
  have hc2 : cos pos.theta ^ 2 = 1 - sin pos.theta ^ 2 := by rw [Real.sin_sq]; ring
  have : (L' - a * E') ^ 2 + Q = ((pos.r ^ 2 + a ^ 2 * cos pos.theta ^ 2) * vel.theta) ^ 2
      + a ^ 2 * cos pos.theta ^ 2 + (L' / sin pos.theta - a * E' * sin pos.theta) ^ 2 := by
    rw [← hQ]
    generalize (pos.r ^ 2 + a ^ 2 * cos pos.theta ^ 2) * vel.theta = T
    rw [hc2]
    field_simp
    ring
  rw [this]; positivity

/-- Outside the ergosphere (`a² s < Δ`) the energy of a future-directed timelike vector is positive. -/
lemma energy_aux {X Y w a s D : ℝ} (hs : 0 ≤ s) (hD : 0 < D) (h1 : a ^ 2 * s < D) (hw : D ≤ w)
    (hA : 0 < w * X + a * s * Y) (hn : s * Y ^ 2 < D * X ^ 2) : 0 < D * X + a * s * Y := by
  have h : (a * s * Y) ^ 2 ≤ (D * X) ^ 2 := by
    have : (a ^ 2 * s) * (s * Y ^ 2) ≤ D * (D * X ^ 2) :=
      mul_le_mul h1.le hn.le (by positivity) hD.le
    nlinarith
  have hlt : (a * s * Y) ^ 2 < (D * X) ^ 2 := by
    have h2 : (a ^ 2 * s) * (s * Y ^ 2) ≤ D * (s * Y ^ 2) :=
      mul_le_mul_of_nonneg_right h1.le (by positivity)
    have h3 : D * (s * Y ^ 2) < D * (D * X ^ 2) := mul_lt_mul_of_pos_left hn hD
    nlinarith
  have habs := sq_lt_sq.mp hlt
  have hX : 0 < X := by
    by_contra hc
    have hX0 : X ≤ 0 := not_lt.mp hc
    rw [abs_of_nonpos (mul_nonpos_of_nonneg_of_nonpos hD.le hX0)] at habs
    have := (abs_lt.mp habs).2
    nlinarith [mul_nonneg (sub_nonneg.mpr hw) (neg_nonneg.mpr hX0)]
  rw [abs_of_pos (mul_pos hD hX)] at habs
  linarith [(abs_lt.mp habs).1]

section
variable {rs : RootScalar} {a : ℝ} {pos vel : Vec4} {M mu : Option ℝ} {o : OrbitObj} {E L Q : ℝ}

/-- Everything known about an object with `stable = True`. -/
lemma stable_unpack (ho : mkOrbit rs a pos vel M mu = .ok o) (hst : o.stable = true)
    (hcs : o.consts = (E, L, Q)) :
    ∃ r1 r2 r3 r4 p e x z1 z2, E ^ 2 ≠ 1 ∧ o.apex = (p, e, x)
      ∧ Spec.RadialRoots a E L Q r1 r2 r3 r4 ∧ r4 ≤ r3 ∧ r3 ≤ r2 ∧ r2 ≤ r1
      ∧ 1 - √(1 - a ^ 2) < r2 ∧ polarRootsNumpy a E L Q = .ok (z1, z2)
      ∧ p = 2 * r1 * r2 / (r1 + r2) ∧ e = (r1 - r2) / (r1 + r2) ∧ x = Real.sign L * √(1 - z1)
      ∧ Spec.BoundOrbit rs a p e x ∧ x ≠ 0 ∧ e ≠ 1
      ∧ constantsFromInitialConditions a pos vel = .ok (E, L, Q) := by
  obtain ⟨hc, hcl, -⟩ := mkOrbit_class ho
  obtain ⟨E', L', Q', p, e, x, m, hc', hap, hm, -, -, hapx, hcs', -⟩ := mkOrbit_stable ho hst
  rw [hcs] at hcs'
  simp only [Prod.mk.injEq] at hcs'
  obtain ⟨rfl, rfl, rfl⟩ := hcs'
  rw [hcs, hst] at hcl
  unfold apexFromConstants at hap
  obtain ⟨⟨r4, r3, r2, r1⟩, hr, hap⟩ := bind_eq_ok.mp hap
  obtain ⟨⟨z1, z2⟩, hz, hap⟩ := bind_eq_ok.mp hap
  have hap := Except.ok.inj hap
  simp only [Prod.mk.injEq, true_and] at hap
  obtain ⟨hp, he, hx⟩ := hap
  obtain ⟨hE, hn⟩ := radial_of_numpy hr
  obtain ⟨s1, s2, s3, s4, hR, h43, h32, h21, hm2, -, -⟩ := (C36_true_iff _ _ _ _ _ pos vel hE).mp hcl
  have hn' := npRoots_radial_real (sub_ne_zero.mpr hE) (s0 := s4) (s1 := s3) (s2 := s2) (s3 := s1)
      (fun r => by rw [hR]; ring) h43 h32 h21
  rw [hn] at hn'
  simp only [List.cons.injEq, Complex.ofReal_inj, and_true] at hn'
  obtain ⟨rfl, rfl, rfl, rfl⟩ := hn'
  have hret := ((C12_frequency_contract rs a p e x none none none).2.2.2.2.1).1.mp ⟨m, hm⟩
  exact ⟨r1, r2, r3, r4, p, e, x, z1, z2, hE, hapx, hR, h43, h32, h21, hm2, hz, hp.symm, he.symm,
    hx.symm, hret.1, hret.2.1, hret.2.2, hc'⟩

/-- **C75.** If `Orbit(a, position, velocity)` is constructed with `stable = True`, the geodesic is bound:
`E² < 1`.  So scattering and parabolic geodesics (also those starting at their turning point, where
`is_stable` answers `True`) are never given stable-orbit parameters, frequencies or trajectories. -/
theorem C75_bound (ho : mkOrbit rs a pos vel M mu = .ok o) (hst : o.stable = true)
    (hcs : o.consts = (E, L, Q)) (hsin : sin pos.theta ≠ 0) : E ^ 2 < 1 := by
  obtain ⟨r1, r2, r3, r4, p, e, x, z1, z2, hE, -, hR, h43, h32, h21, hm, hz, hp, he, hx, hb, hx0, -, hc⟩ :=
    stable_unpack ho hst hcs
  have hK := carter_total_nonneg hsin hc
  by_contra hcon
  have hE1 : 0 < E ^ 2 - 1 := by
    have : E ^ 2 - 1 ≠ 0 := sub_ne_zero.mpr hE
    have h2 : 0 ≤ E ^ 2 - 1 := by linarith
    exact lt_of_le_of_ne h2 this.symm
  have hr2 : 0 < r2 := by
    have := Real.sqrt_le_one.mpr (show 1 - a ^ 2 ≤ 1 by linarith [sq_nonneg a])
    linarith
  have hr1 : 0 < r1 := by linarith
  obtain ⟨v1, v2, v3, v4⟩ := RadialRoots.vieta hR
  by_cases ha : a = 0
  · subst ha
    have h60 : 6 < p := by
      obtain ⟨⟨he0, -⟩, -, hp6⟩ := schwarzschild_bound hb
      linarith
    rw [hp, lt_div_iff₀ (by linarith)] at h60
    obtain ⟨k, hk⟩ : ∃ k, k = E ^ 2 - 1 := ⟨_, rfl⟩
    rw [show 1 - E ^ 2 = -k by rw [hk]; ring] at v1 v2 v3 v4
    rw [← hk] at hE1
    have hs : r1 + r2 + r3 + r4 < 0 := by nlinarith
    have hr4 : r4 < 0 := by linarith
    have hr3 : r3 = 0 := by
      have h0 : k * (r1 * r2 * r4) * r3 = 0 := by linarith
      rcases mul_eq_zero.mp h0 with h | h
      · have : k * (r1 * r2 * r4) < 0 := mul_neg_of_pos_of_neg hE1
          (mul_neg_of_pos_of_neg (mul_pos hr1 hr2) hr4)
        linarith
      · exact h
    subst hr3
    have h5 : k * (r1 * r2 + r4 * (r1 + r2) - r1 * r2 * r4 / 2) = 0 := by
      linear_combination -v2 + v3 / 2
    have h6 := (mul_eq_zero.mp h5).resolve_left hE1.ne'
    have h7 : 0 < r1 * r2 := mul_pos hr1 hr2
    nlinarith
  · obtain ⟨h12, hZ⟩ := polar_of_numpy ha hz
    have hx1 : |x| ≤ 1 := hb.2.2.1
    have hA : 0 < a ^ 2 := by positivity
    have hz1 : 0 ≤ z1 := by
      by_contra hn
      have hL0 : L ≠ 0 := by
        rintro rfl
        rw [Real.sign_zero, zero_mul] at hx
        exact hx0 hx
      have h1 : 1 < √(1 - z1) := Real.lt_sqrt_of_sq_lt (by linarith)
      have h2 : |x| = √(1 - z1) := by
        rw [hx, abs_mul, abs_of_nonneg (Real.sqrt_nonneg _)]
        rcases lt_or_gt_of_ne hL0 with h | h
        · rw [Real.sign_of_neg h]; simp
        · rw [Real.sign_of_pos h]; simp
      linarith
    have hz2 : 0 ≤ z2 := hz1.trans h12
    have q0 := hZ 0
    have q1 := hZ 1
    have q2 := hZ (-1)
    unfold Spec.Zpol at q0 q1 q2
    have hc0 : 0 < a ^ 2 * (E ^ 2 - 1) := mul_pos hA hE1
    have hQ : Q ≤ 0 := by
      have : Q = -(a ^ 2 * (E ^ 2 - 1) * (z1 * z2)) := by linear_combination q0
      rw [this]
      have := mul_nonneg hc0.le (mul_nonneg hz1 hz2)
      linarith
    have hS : 0 ≤ a ^ 2 * (E ^ 2 - 1) - L ^ 2 - Q := by
      have : a ^ 2 * (E ^ 2 - 1) - L ^ 2 - Q = a ^ 2 * (E ^ 2 - 1) * (z1 + z2) := by
        linear_combination (q1 - q2) / 2
      rw [this]
      positivity
    have hroot : Spec.R a E L Q r2 = 0 := by rw [hR]; ring
    have hexp : Spec.R a E L Q r2 = (E ^ 2 - 1) * r2 ^ 4 + 2 * r2 ^ 3
        + (a ^ 2 * (E ^ 2 - 1) - L ^ 2 - Q) * r2 ^ 2 + 2 * ((L - a * E) ^ 2 + Q) * r2 + a ^ 2 * -Q := by
      unfold Spec.R Spec.Delta; ring
    have t1 : 0 < (E ^ 2 - 1) * r2 ^ 4 := by positivity
    have t2 : 0 < 2 * r2 ^ 3 := by positivity
    have t3 : 0 ≤ (a ^ 2 * (E ^ 2 - 1) - L ^ 2 - Q) * r2 ^ 2 := by positivity
    have t4 : 0 ≤ 2 * ((L - a * E) ^ 2 + Q) * r2 := by positivity
    have t5 : 0 ≤ a ^ 2 * -Q := mul_nonneg hA.le (by linarith)
    linarith

/-- **C75.** The attributes of a stable `Orbit` describe one orbit: if `Orbit(a, position, velocity)` is
constructed with `stable = True` and `E > 0`, its `(p, e, x)` are accepted (above the separatrix, not polar,
not parabolic), they are the turning points and the inclination of the bound geodesic with its constants
`(E, L, Q)`, and `constants_of_motion(a, p, e, x)` returns exactly these `(E, L, Q)` (for a prograde orbit
with `p ≤ 4`: where its divisors do not vanish). -/
theorem C75_parameters {p e x : ℝ} (ha : 0 < a) (ho : mkOrbit rs a pos vel M mu = .ok o)
    (hst : o.stable = true) (hcs : o.consts = (E, L, Q)) (hap : o.apex = (p, e, x))
    (hsin : sin pos.theta ≠ 0) (hE : 0 < E)
    (hp : 0 < x → p ≤ 4 → Spec.DivisorsNonzero a p e x) :
    Spec.BoundOrbit rs a p e x ∧ x ≠ 0 ∧ e ≠ 1
    ∧ (∃ r3 r4, Spec.RadialRoots a E L Q (p / (1 - e)) (p / (1 + e)) r3 r4
      ∧ r4 ≤ 1 - √(1 - a ^ 2) ∧ 1 + √(1 - a ^ 2) ≤ r3 ∧ r3 < p / (1 + e))
    ∧ Real.sign L = Real.sign x ∧ Spec.Zpol a E L Q (1 - x ^ 2) = 0
    ∧ constantsOfMotion rs a p e x = .ok (E, L, Q) := by
  have hE1 := C75_bound ho hst hcs hsin
  obtain ⟨r1, r2, r3, r4, p', e', x', z1, z2, hE', hap', hR, h43, h32, h21, hm, hz, ep, ee, ex, hb, hx0,
    he1, hc⟩ := stable_unpack ho hst hcs
  rw [hap] at hap'
  simp only [Prod.mk.injEq] at hap'
  obtain ⟨rfl, rfl, rfl⟩ := hap'
  have hr2 : 0 < r2 := by
    have := Real.sqrt_le_one.mpr (show 1 - a ^ 2 ≤ 1 by linarith [sq_nonneg a])
    linarith
  have hr1 : 0 < r1 := by linarith
  have d1 : p / (1 - e) = r1 := by
    rw [ep, ee, show 1 - (r1 - r2) / (r1 + r2) = 2 * r2 / (r1 + r2) by field_simp; ring]; field_simp
  have d2 : p / (1 + e) = r2 := by
    rw [ep, ee, show 1 + (r1 - r2) / (r1 + r2) = 2 * r1 / (r1 + r2) by field_simp; ring]; field_simp
  obtain ⟨h12, hZ⟩ := polar_of_numpy ha.ne' hz
  have hL0 : L ≠ 0 := by
    rintro rfl
    rw [Real.sign_zero, zero_mul] at ex
    exact hx0 ex
  have hz1 : 0 < 1 - z1 := by
    by_contra hn
    rw [Real.sqrt_eq_zero_of_nonpos (not_lt.mp hn), mul_zero] at ex
    exact hx0 ex
  have hsq := Real.sqrt_pos.mpr hz1
  have hsg : Real.sign L = Real.sign x := by
    rcases lt_or_gt_of_ne hL0 with h | h
    · rw [Real.sign_of_neg h] at ex ⊢
      rw [Real.sign_of_neg (by linarith)]
    · rw [Real.sign_of_pos h] at ex ⊢
      rw [Real.sign_of_pos (by linarith)]
  have hx2 : x ^ 2 = 1 - z1 := by
    rw [ex, mul_pow, Real.sq_sqrt hz1.le]
    rcases lt_or_gt_of_ne hL0 with h | h
    · rw [Real.sign_of_neg h]; ring
    · rw [Real.sign_of_pos h]; ring
  have hZ1 : Spec.Zpol a E L Q (1 - x ^ 2) = 0 := by rw [hx2, hZ]; ring
  rw [← d1, ← d2] at hR
  obtain ⟨hal, he, hlt, hl, hr, habs, hsx, s, hv, hsp⟩ := bound_value hb ha he1
  obtain ⟨-, -, hout, hpe⟩ := accepted_geom ha hal he hlt hx0 hl hr hv hsp
  have hconst : constantsOfMotion rs a p e x = .ok (E, L, Q) := by
    rcases accepted_cases ha hal he hlt hx0 hl hr hv hsp with h4 | ⟨-, h4, -, hS⟩
    · exact C09_constants_inverse rs a p e x E L Q hb ha he1 hx0 h4 hE hsg (RadialRoots.turning hR) hZ1
    · have hlt32 : r3 < p / (1 + e) := by
        rw [d2]
        refine lt_of_le_of_ne h32 ?_
        rintro rfl
        have hmar : SFull p a e x = 0 := C42_marginal_orbit_zero a p e x E L Q r4 he1 (by linarith) hE'
          (by rw [d2] at hR ⊢; exact hR) hZ1
        rw [SFull_eq] at hmar
        rw [show 1 - (1 - x ^ 2) = x ^ 2 by ring] at hS
        linarith
      exact C09_constants_stable rs a p e x E L Q r3 r4 hb ha he1 hx0 hp hE hE1 hsg hR h43 hlt32 hZ1
  obtain ⟨E', L', Q', _, _, s3, s4, hc', -, -, -, -, -, rfl, rfl, hR', k32, -, -, k3, k4, -, -⟩ :=
    C04_boundGeodesic rs a p e x hb ha he1 hx0 hp
  have hcc := Except.ok.inj (hc'.symm.trans hconst)
  simp only [Prod.mk.injEq] at hcc
  obtain ⟨rfl, rfl, rfl⟩ := hcc
  exact ⟨hb, hx0, he1, ⟨s3, s4, hR', k4, k3, k32⟩, hsg, hZ1, hconst⟩

/-- **C75.** So whatever the initial data, if `Orbit` calls them stable (and `E > 0`), then for all initial
phases `trajectory` is, at every Mino time, the bound geodesic with the object's own constants of motion:
it solves the four geodesic equations, stays between the object's turning points and outside the horizon,
runs into the future, and `four_velocity` has norm -1.  (Exceptions for prograde orbits as in C22.) -/
theorem C75_geodesic {p e x : ℝ} (ha : 0 < a) (ho : mkOrbit rs a pos vel M mu = .ok o)
    (hst : o.stable = true) (hcs : o.consts = (E, L, Q)) (hap : o.apex = (p, e, x))
    (hsin : sin pos.theta ≠ 0) (hE : 0 < E)
    (hp : 0 < x → p ≤ 4 → Spec.DivisorsNonzero a p e x)
    (hh : x < 0 ∨ E * ((1 + √(1 - a ^ 2)) ^ 2 + a ^ 2) ≠ a * L) (q : Option Phases) :
    ∃ T f, o.trajectoryNat rs q = .ok T ∧ o.fourVelocityNorm rs q = .ok f
      ∧ StrictMono T.t
      ∧ ∀ lam, f lam = -1
        ∧ HasDerivAt T.t (Spec.dtdlam a E L (T.r lam) (T.theta lam)) lam
        ∧ HasDerivAt T.r (Real.sign (sin (o.upsilonR * lam + (q.getD o.phases).qr))
            * √(Spec.R a E L Q (T.r lam))) lam
        ∧ HasDerivAt T.theta (Real.sign (sin (o.upsilonTheta * lam + (q.getD o.phases).qtheta))
            * √(Spec.Theta a E L Q (T.theta lam))) lam
        ∧ HasDerivAt T.phi (Spec.dphidlam a E L (T.r lam) (T.theta lam)) lam
        ∧ p / (1 + e) ≤ T.r lam ∧ T.r lam ≤ p / (1 - e) ∧ outerHorizon a < T.r lam := by
  obtain ⟨hb, hx0, he1, -, -, -, hconst⟩ := C75_parameters ha ho hst hcs hap hsin hE hp
  obtain ⟨E', L', Q', p', e', x', m', -, -, hm', -, hoa, hap', -, hu1, hu2⟩ := mkOrbit_stable ho hst
  rw [hap] at hap'
  simp only [Prod.mk.injEq] at hap'
  obtain ⟨rfl, rfl, rfl⟩ := hap'
  obtain ⟨T, m, E'', L'', Q'', hT, hm, hc, -, -, -, -, -, -, -, hall, -, hmono, -⟩ :=
    C22_kerr rs a p e x (q.getD o.phases) hb ha.le he1 hx0 hp (by
      rcases hh with h | h
      · exact Or.inl h
      · refine Or.inr fun E' L' Q' hc' => ?_
        have hcc := Except.ok.inj (hc'.symm.trans hconst)
        simp only [Prod.mk.injEq] at hcc
        obtain ⟨rfl, rfl, rfl⟩ := hcc
        exact h)
  have hcc := Except.ok.inj (hc.symm.trans hconst)
  simp only [Prod.mk.injEq] at hcc
  obtain ⟨rfl, rfl, rfl⟩ := hcc
  have hmm := Except.ok.inj (hm'.symm.trans hm)
  subst hmm
  have hT1 : o.trajectoryNat rs q = .ok T := by
    unfold OrbitObj.trajectoryNat
    simp only [hap, hcs, hst, if_true, hoa]
    exact hT
  have hT2 : o.trajectoryNat rs (some (q.getD o.phases)) = .ok T := by
    unfold OrbitObj.trajectoryNat
    simp only [hap, hcs, hst, if_true, hoa, Option.getD_some]
    exact hT
  refine ⟨T, fun time => norm4 a (T.t time) (T.r time) (T.theta time) (T.phi time)
    ((fourVelocity a T (E'', L'', Q'') m'.upsilonR m'.upsilonTheta (q.getD o.phases)).at time), hT1, ?_,
    hmono, fun lam => ?_⟩
  · unfold OrbitObj.fourVelocityNorm OrbitObj.fourVelocity
    simp only [Option.getD_some, hT2, bind_ok, pure, Except.pure, hoa, hcs, hu1, hu2]
  · obtain ⟨d1, d2, d3, d4, b1, b2, -, -, b5, hn⟩ := hall lam
    refine ⟨hn, d1, ?_, ?_, d4, b1, b2, b5⟩
    · rw [hu1]; exact d2
    · rw [hu2]; exact d3

/-- **C75.** `E > 0` is automatic for future-directed initial data outside the ergosphere. -/
theorem C75_energy (ho : mkOrbit rs a pos vel M mu = .ok o) (hcs : o.consts = (E, L, Q))
    (hsin : sin pos.theta ≠ 0) (hr : 0 < pos.r) (herg : 2 * pos.r < pos.r ^ 2 + a ^ 2 * cos pos.theta ^ 2)
    (hfut : 0 < vel.t) : 0 < E := by
  have hn : norm4 a pos.t pos.r pos.theta pos.phi vel < 0 := by
    unfold mkOrbit at ho
    obtain ⟨⟨⟩, hg, -⟩ := bind_eq_ok.mp ho
    by_contra hcon
    unfold orbitNormGuard raiseIf at hg
    obtain ⟨⟨⟩, h1, -⟩ := bind_eq_ok.mp hg
    rw [if_pos (not_lt.mp hcon)] at h1
    cases h1
  have hc := (mkOrbit_class ho).1
  rw [hcs] at hc
  have hsc := Real.sin_sq_add_cos_sq pos.theta
  have hS : 0 < Spec.Sigma a pos.r pos.theta := by unfold Spec.Sigma; positivity
  have hD : 0 < Spec.Delta a pos.r := by
    unfold Spec.Delta
    nlinarith [mul_nonneg (sq_nonneg a) (sq_nonneg (sin pos.theta))]
  obtain ⟨E', L', Q', hc', hE, -⟩ := C02_conserved a pos vel hS.ne' hD.ne' hsin
  have hcc := Except.ok.inj (hc'.symm.trans hc)
  simp only [Prod.mk.injEq] at hcc
  obtain ⟨rfl, -, -⟩ := hcc
  rw [norm4, C03_metric_is_kerr _ _ _ _ _ hS.ne'] at hn
  have hSs : Spec.Sigma a pos.r pos.theta = pos.r ^ 2 + a ^ 2 - a ^ 2 * sin pos.theta ^ 2 := by
    unfold Spec.Sigma; linear_combination a ^ 2 * hsc
  have hDd : Spec.Delta a pos.r = pos.r ^ 2 + a ^ 2 - 2 * pos.r := by unfold Spec.Delta; ring
  have hlt : a ^ 2 * sin pos.theta ^ 2 < Spec.Delta a pos.r := by
    rw [hDd]; unfold Spec.Sigma at hSs; linarith
  have key := energy_aux (X := vel.t - a * sin pos.theta ^ 2 * vel.phi)
    (Y := (pos.r ^ 2 + a ^ 2) * vel.phi - a * vel.t) (w := pos.r ^ 2 + a ^ 2) (a := a) (s := sin pos.theta ^ 2)
    (D := Spec.Delta a pos.r) (sq_nonneg _) hD hlt (by linarith) (by
      have : 0 < vel.t * Spec.Sigma a pos.r pos.theta := mul_pos hfut hS
      rw [hSs] at this
      linarith) (by
      have h1 : Spec.Sigma a pos.r pos.theta * Spec.kerr a pos.r pos.theta vel.toVec vel.toVec < 0 :=
        mul_neg_of_pos_of_neg hS hn
      have h2 : 0 ≤ Spec.Sigma a pos.r pos.theta ^ 2 / Spec.Delta a pos.r * vel.r ^ 2 := by positivity
      have h3 : 0 ≤ Spec.Sigma a pos.r pos.theta ^ 2 * vel.theta ^ 2 := by positivity
      have h4 : Spec.Sigma a pos.r pos.theta * Spec.kerr a pos.r pos.theta vel.toVec vel.toVec
          = -Spec.Delta a pos.r * (vel.t - a * sin pos.theta ^ 2 * vel.phi) ^ 2
            + Spec.Sigma a pos.r pos.theta ^ 2 / Spec.Delta a pos.r * vel.r ^ 2
            + Spec.Sigma a pos.r pos.theta ^ 2 * vel.theta ^ 2
            + sin pos.theta ^ 2 * ((pos.r ^ 2 + a ^ 2) * vel.phi - a * vel.t) ^ 2 := by
        simp only [Spec.kerr, Vec4.toVec, Matrix.cons_val_zero, Matrix.cons_val_one, Matrix.cons_val]
        field_simp
      linarith)
  have h5 : Spec.Sigma a pos.r pos.theta * E'
      = Spec.Delta a pos.r * (vel.t - a * sin pos.theta ^ 2 * vel.phi)
        + a * sin pos.theta ^ 2 * ((pos.r ^ 2 + a ^ 2) * vel.phi - a * vel.t) := by
    rw [hE]
    simp only [Spec.kerr, Vec4.toVec, Matrix.cons_val_zero, Matrix.cons_val_one, Matrix.cons_val]
    field_simp
    ring
  exact pos_of_mul_pos_right (h5 ▸ key) hS.le

/-- Non-vacuity of `C75_bound`, `C75_parameters` and `C75_geodesic`: initial data at `r = 10` on the equator,
between the turning points `8` and `45/4`. -/
lemma C75_instance (rs : RootScalar) (q : Option Phases) : ∃ vel o x T f,
    mkOrbit rs (12 / 13) ⟨1, 10, π / 2, 3⟩ vel none none = .ok o ∧ o.stable = true
    ∧ o.apex = (2 * (45 / 4) * 8 / (45 / 4 + 8), (45 / 4 - 8) / (45 / 4 + 8), x)
    ∧ o.consts.1 ^ 2 < 1 ∧ 0 < vel.t ∧ 0 < o.consts.1
    ∧ constantsOfMotion rs (12 / 13) (2 * (45 / 4) * 8 / (45 / 4 + 8)) ((45 / 4 - 8) / (45 / 4 + 8)) x
        = .ok o.consts
    ∧ o.trajectoryNat rs q = .ok T ∧ o.fourVelocityNorm rs q = .ok f
    ∧ ∀ lam, f lam = -1 ∧ 8 ≤ T.r lam ∧ T.r lam ≤ 45 / 4 := by
  have hE0 := exE_pos
  have hE2 := exE_sq
  have hE : exE ^ 2 < 1 := by rw [hE2]; norm_num
  have hE1 : exE < 1 := by nlinarith
  have hS : Spec.Sigma (12 / 13) 10 (π / 2) = 100 := by simp [Spec.Sigma]; norm_num
  have hD : Spec.Delta (12 / 13) 10 ≠ 0 := by norm_num [Spec.Delta]
  have hR : 0 < Spec.R (12 / 13) exE (12 / 13 * exE) (8294400 / 679439) 10 := by
    rw [exReal_roots, hE2]; norm_num
  have hT : Spec.Theta (12 / 13) exE (12 / 13 * exE) (8294400 / 679439) (π / 2) = 8294400 / 679439 := by
    simp [Spec.Theta]
  obtain ⟨hc, hn⟩ := velocityOf_ok (a := 12 / 13) (E := exE) (L := 12 / 13 * exE)
    (Q := 8294400 / 679439) (sr := -1) (sθ := 1) (pos := ⟨1, 10, π / 2, 3⟩) (by norm_num) (by norm_num)
    (by simp only [hS]; norm_num) hD (by simp) hR.le (by simp only [hT]; norm_num)
  have hL0 : 0 < 12 / 13 * exE := by positivity
  obtain ⟨o, x, ho, hst, hcs, hap, -, -, -⟩ := C34_stable_accepted rs none none (by norm_num)
    (by norm_num) hc hn (by simp) hE0 hE1 hL0.ne' exReal_roots (by norm_num) (by norm_num) (by norm_num)
    (by rw [exHorizon]; norm_num) (by norm_num) (by norm_num)
  have hs : sin (⟨1, 10, π / 2, 3⟩ : Vec4).theta ≠ 0 := by simp
  have hp : 0 < x → 2 * (45 / 4) * 8 / (45 / 4 + 8) ≤ (4:ℝ) → Spec.DivisorsNonzero (12 / 13)
      (2 * (45 / 4) * 8 / (45 / 4 + 8)) ((45 / 4 - 8) / (45 / 4 + 8)) x := fun _ h => absurd h (by norm_num)
  obtain ⟨-, -, -, -, -, -, hcm⟩ := C75_parameters (by norm_num) ho hst hcs hap hs hE0 hp
  obtain ⟨T, f, h1, h2, -, h3⟩ := C75_geodesic (by norm_num) ho hst hcs hap hs hE0 hp (.inr (by
    have : 0 ≤ √(1 - (12 / 13 : ℝ) ^ 2) := Real.sqrt_nonneg _
    have : 0 < exE * (1 + √(1 - (12 / 13 : ℝ) ^ 2)) ^ 2 := by positivity
    intro h
    nlinarith)) q
  have ht : 0 < (Spec.velocityOf (12 / 13) exE (12 / 13 * exE) (8294400 / 679439) ⟨1, 10, π / 2, 3⟩ (-1) 1).t := by
    simp only [Spec.velocityOf, hS, Spec.dtdlam, Real.sin_pi_div_two]
    have : Spec.Delta (12 / 13) 10 = 80 + (12 / 13) ^ 2 := by unfold Spec.Delta; ring
    rw [this]
    have : (10 ^ 2 + (12 / 13) ^ 2) / (80 + (12 / 13) ^ 2) * (exE * (10 ^ 2 + (12 / 13) ^ 2) - 12 / 13 * (12 / 13 * exE))
        - 12 / 13 * (12 / 13 * exE * 1 ^ 2 - 12 / 13 * exE)
        = exE * ((10 ^ 2 + (12 / 13) ^ 2) / (80 + (12 / 13) ^ 2) * 10 ^ 2) := by ring
    rw [this]
    positivity
  refine ⟨_, o, x, T, f, ho, hst, hap, ?_, ht, C75_energy ho rfl hs (by norm_num) (by norm_num) ht, ?_, h1, h2,
    fun lam => ?_⟩
  · rw [hcs]; exact C75_bound ho hst hcs hs
  · rw [hcs]; exact hcm
  · obtain ⟨k1, -, -, -, -, k2, k3, -⟩ := h3 lam
    exact ⟨k1, by norm_num at k2 ⊢; exact k2, by norm_num at k3 ⊢; exact k3⟩

/-- The claim has content: a scattering geodesic (`E² = 124/119`) at its periapsis `r = 10` is normalised
initial data for which `is_stable` answers `True`; `Orbit` does not accept them. -/
example (rs : RootScalar) (M mu : Option ℝ) : ∃ vel E L,
    constantsFromInitialConditions 0 ⟨0, 10, π / 2, 0⟩ vel = .ok (E, L, 0)
    ∧ norm4 0 0 10 (π / 2) 0 vel = -1 ∧ 1 < E ^ 2
    ∧ icIsStable 0 ⟨0, 10, π / 2, 0⟩ vel = .ok true
    ∧ ∀ o, mkOrbit rs 0 ⟨0, 10, π / 2, 0⟩ vel M mu ≠ .ok o := by
  have hE : √(124 / 119 : ℝ) ^ 2 = 124 / 119 := Real.sq_sqrt (by norm_num)
  have hL : √(3600 / 119 : ℝ) ^ 2 = 3600 / 119 := Real.sq_sqrt (by norm_num)
  obtain ⟨E, hE'⟩ : ∃ E, E = √(124 / 119 : ℝ) := ⟨_, rfl⟩
  obtain ⟨L, hL'⟩ : ∃ L, L = √(3600 / 119 : ℝ) := ⟨_, rfl⟩
  rw [← hE'] at hE
  rw [← hL'] at hL
  have hR : Spec.RadialRoots 0 E L 0 10 (12 / 5) 0 (-60) := by
    intro r
    unfold Spec.R Spec.Delta
    linear_combination (r ^ 4 + (10 - r) * (r - 12 / 5) * (r - 0) * (r - -60)) * hE + (-r ^ 2 + 2 * r) * hL
  have hT : Spec.Theta 0 E L 0 (π / 2) = 0 := by simp [Spec.Theta]
  obtain ⟨hc, hn⟩ := velocityOf_ok (a := 0) (E := E) (L := L)
    (Q := 0) (sr := 1) (sθ := 1) (pos := ⟨0, 10, π / 2, 0⟩) (by norm_num) (by norm_num)
    (by simp [Spec.Sigma]) (by norm_num [Spec.Delta]) (by simp) (by rw [hR]; simp) (by simp only [hT]; norm_num)
  have hcl : icIsStable 0 ⟨0, 10, π / 2, 0⟩ (Spec.velocityOf 0 E L 0 ⟨0, 10, π / 2, 0⟩ 1 1) (some (E, L, 0))
      = .ok true := by
    refine (C36_true_iff 0 E L 0 _ _ _ (by rw [hE]; norm_num)).mpr ⟨10, 12 / 5, 0, -60, hR, by norm_num,
      by norm_num, by norm_num, by norm_num, by norm_num, by norm_num⟩
  have hcl' : icIsStable 0 ⟨0, 10, π / 2, 0⟩ (Spec.velocityOf 0 E L 0 ⟨0, 10, π / 2, 0⟩ 1 1) = .ok true := by
    rw [← hcl]
    unfold icIsStable icConstantsOr
    simp only [hc, bind_ok]
    rfl
  refine ⟨_, E, L, hc, hn, by rw [hE]; norm_num, hcl', fun o ho => ?_⟩
  obtain ⟨hc', hk, -⟩ := mkOrbit_class ho
  have hcs : o.consts = (E, L, 0) := Except.ok.inj (hc'.symm.trans hc)
  rw [hcs, hcl] at hk
  have := C75_bound ho (Except.ok.inj hk).symm hcs (by simp)
  rw [hE] at this
  norm_num at this

end

end KGP
