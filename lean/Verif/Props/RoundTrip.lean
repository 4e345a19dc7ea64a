import Verif.Props.KerrOrbits
import Verif.Props.StableIff
import Verif.Props.Classify
import Verif.Lemmas.SchmidtUnique

/-!
# C09: `constants_of_motion` inverts `apex_from_constants`
-/

namespace KGP

open Classical Real

/-- **C09.** If `(E, L, Q)` has `E > 0`, `L` of the sign of `x`, its radial potential vanishes at
`p/(1-e)` and `p/(1+e)` (doubly if these coincide), its polar potential vanishes at `1 - x²` and
`(a, p, e, x)` is accepted, then `constants_of_motion a p e x` returns exactly `(E, L, Q)`. -/
theorem C09_constants_inverse (rs : RootScalar) (a p e x E L Q : ℝ) (h : Spec.BoundOrbit rs a p e x)
    (ha : 0 < a) (he1 : e ≠ 1) (hx0 : x ≠ 0) (hp : 4 < p) (hE : 0 < E)
    (hL : Real.sign L = Real.sign x) (hT : Spec.TurningPoints a E L Q p e)
    (hZ : Spec.Zpol a E L Q (1 - x ^ 2) = 0) :
    constantsOfMotion rs a p e x = .ok (E, L, Q) := by
  obtain ⟨E', L', hc, hX⟩ := constants_exact h ha.ne' he1 hx0 hp
  obtain ⟨hal, ⟨he, hel⟩, hx, -⟩ := h
  rw [abs_of_pos ha] at hc hX hal
  have hsx : Spec.signedX a x = x := by
    unfold Spec.signedX; rw [if_neg (not_lt.mpr ha.le)]
  rw [hsx] at hc hX
  have hx2 : x ^ 2 ≤ 1 := by rw [← sq_abs]; nlinarith [abs_nonneg x]
  have hQ := carter_of_zpol hx2 hx0 hZ
  have hsL : 0 < Real.sign x * L := by
    rw [← hL]
    have hL0 : L ≠ 0 := by
      rintro rfl
      rw [Real.sign_zero] at hL
      exact hx0 (Real.sign_eq_zero_iff.mp hL.symm)
    rcases lt_or_gt_of_ne hL0 with h | h
    · rw [Real.sign_of_neg h]; linarith
    · rw [Real.sign_of_pos h]; linarith
  rw [hQ] at hT
  obtain ⟨rfl, rfl⟩ := Schmidt.unique ha hal.le hp he (lt_of_le_of_ne hel he1) hx0 hx2 hE hsL hT
    hX.energy_pos hX.sign hX.turning
  rw [hc, hQ]

/-- **C09.** The same for stable orbits inside `p = 4` too: if `(E, L, Q)` has `E > 0`, `E² < 1`, `L` of the
sign of `x`, its radial potential has the roots `p/(1-e) ≥ p/(1+e) > r3 ≥ r4` and its polar potential
vanishes at `1 - x²`, then `constants_of_motion a p e x` returns exactly `(E, L, Q)` (where its divisors do
not vanish, in the case of a prograde orbit with `p ≤ 4`). -/
theorem C09_constants_stable (rs : RootScalar) (a p e x E L Q r3 r4 : ℝ) (h : Spec.BoundOrbit rs a p e x)
    (ha : 0 < a) (he1 : e ≠ 1) (hx0 : x ≠ 0) (hp : 0 < x → p ≤ 4 → Spec.DivisorsNonzero a p e x)
    (hE : 0 < E) (hE1 : E ^ 2 < 1)
    (hL : Real.sign L = Real.sign x)
    (hR : Spec.RadialRoots a E L Q (p / (1 - e)) (p / (1 + e)) r3 r4) (h43 : r4 ≤ r3)
    (h32 : r3 < p / (1 + e))
    (hZ : Spec.Zpol a E L Q (1 - x ^ 2) = 0) :
    constantsOfMotion rs a p e x = .ok (E, L, Q) := by
  have hc0 := constantsOfMotion_of_bound h
  obtain ⟨hal, he, hlt, hl, hr, habs, hsx, s, hv, hsp⟩ := bound_value h ha he1
  have hreg : 0 < x → p ≤ 4 → Schmidt.Regular a p e x := by
    intro h1 h2
    have := (divisors_iff a p e x).mp (hp h1 h2)
    rwa [habs, hsx] at this
  have hX := accepted_formula ha hal he hlt hx0 hl hr hv hsp hreg
  obtain ⟨-, -, -, hpe⟩ := accepted_geom ha hal he hlt hx0 hl hr hv hsp
  have hx2 : x ^ 2 ≤ 1 := by nlinarith
  have hQ := carter_of_zpol hx2 hx0 hZ
  have hY : StableConsts a p e x E L := by
    refine ⟨hE, (sign_mul_pos hx0).mpr hL, hQ ▸ RadialRoots.turning hR, ?_⟩
    exact (third_root_iff (by nlinarith) hpe he hlt hx2 hE1 rfl rfl hR hZ (by linarith)).mp h32
  obtain ⟨h1, h2⟩ := accepted_unique ha hal he hlt hx0 hl hr hv hsp hX hY
  have h3 : sx a x = x := by rw [sx_eq]; exact hsx
  have h4 : sa a = a := habs
  rw [hc0, h3, h4, pureConsts, if_neg hx0, hQ, h2, h1]

/-- **C09.** The two functions are inverse to each other: from the parameters to the constants and back,
for every accepted orbit (where the divisors do not vanish, if it is prograde with `p ≤ 4`). -/
theorem C09_roundtrip (rs : RootScalar) (a p e x : ℝ) (h : Spec.BoundOrbit rs a p e x)
    (ha : 0 < a) (he1 : e ≠ 1) (hx0 : x ≠ 0) (hp : 0 < x → p ≤ 4 → Spec.DivisorsNonzero a p e x) :
    ∃ E L Q, constantsOfMotion rs a p e x = .ok (E, L, Q)
      ∧ apexFromConstants a E L Q = .ok (a, p, e, x) := by
  obtain ⟨E, L, Q, r1, r2, r3, r4, hc, -, hE, hE1, hL, hQ, rfl, rfl, hR, h32, -, -, h3, h4, -, -⟩ :=
    C04_boundGeodesic rs a p e x h ha he1 hx0 hp
  obtain ⟨he, hel⟩ := h.2.1
  have hs := Real.sqrt_nonneg (1 - a ^ 2)
  have hp0 : 0 < p := by
    have h2 : 0 < p / (1 + e) := by linarith
    have h1 : 0 < 1 + e := by linarith
    have := mul_pos h2 h1
    rwa [div_mul_cancel₀ _ h1.ne'] at this
  refine ⟨E, L, Q, hc, C09_apex_inverse a p e x E L Q r3 r4 (by nlinarith)
    hp0 he (lt_of_le_of_ne hel he1) h.2.2.1 (by linarith) h32.le hR
    (C05_inclination_root rs a p e x E L Q hx0 hc) ?_⟩
  rcases lt_or_gt_of_ne hx0 with h | h
  · rw [Real.sign_of_neg h] at hL ⊢
    rw [Real.sign_of_neg (by linarith)]
  · rw [Real.sign_of_pos h] at hL ⊢
    rw [Real.sign_of_pos (by linarith)]

/-- Non-vacuity of both: `a = 9/10`, `p = 13`, `e = 1/2`, `x = -1/2`. -/
example (rs : RootScalar) : ∃ E L Q, constantsOfMotion rs (9 / 10) 13 (1 / 2) (-1 / 2) = .ok (E, L, Q)
    ∧ apexFromConstants (9 / 10) E L Q = .ok (9 / 10, 13, 1 / 2, -1 / 2) :=
  C09_roundtrip rs (9 / 10) 13 (1 / 2) (-1 / 2)
    (C11_accepts_wide rs _ _ _ _ (by norm_num [abs_lt]) (by norm_num) (by norm_num)
      (by norm_num [abs_le]) (by norm_num)) (by norm_num) (by norm_num) (by norm_num)
    (fun h => absurd h (by norm_num))

/-! ## C34, C35: stable orbits from initial conditions, without assuming the round trip -/

/-- `apex_from_constants`, when there are four real radial roots. -/
lemma apex_of_roots {a E L Q r1 r2 r3 r4 : ℝ} (ha : a ≠ 0) (hE : E ^ 2 < 1) (hL : L ≠ 0)
    (hR : Spec.RadialRoots a E L Q r1 r2 r3 r4) (h43 : r4 ≤ r3) (h32 : r3 ≤ r2) (h21 : r2 ≤ r1)
    (h2 : 0 < r2) :
    ∃ p e x, apexFromConstants a E L Q = .ok (a, p, e, x)
      ∧ p = 2 * r1 * r2 / (r1 + r2) ∧ e = (r1 - r2) / (r1 + r2)
      ∧ p / (1 - e) = r1 ∧ p / (1 + e) = r2 ∧ 0 ≤ e ∧ e < 1
      ∧ Real.sign L = Real.sign x ∧ x ≠ 0 ∧ Spec.Zpol a E L Q (1 - x ^ 2) = 0
      ∧ (0 ≤ Q → |x| ≤ 1) := by
  have hE' : 0 < 1 - E ^ 2 := by linarith
  obtain ⟨zm, zp, hz, hz1, hzp, hf⟩ := polarRootsNumpy_real (Q := Q) ha hE' hL
  have hrad : radialRootsNumpy a E L Q = .ok (r4, r3, r2, r1) := by
    have := npRoots_radial_real (a := a) (E := E) (L := L) (Q := Q) (lead := -(1 - E ^ 2))
      (s0 := r4) (s1 := r3) (s2 := r2) (s3 := r1) (by linarith)
      (fun r => by rw [hR]; ring) h43 h32 h21
    rw [radialRootsNumpy, this]
    simp
  have hr1 : 0 < r1 := by linarith
  have hs : 0 < √(1 - zm) := Real.sqrt_pos.mpr (by linarith)
  have hs2 : √(1 - zm) ^ 2 = 1 - zm := Real.sq_sqrt (by linarith)
  have hsg : Real.sign L = 1 ∨ Real.sign L = -1 := by
    rcases lt_or_gt_of_ne hL with h | h
    · right; exact Real.sign_of_neg h
    · left; exact Real.sign_of_pos h
  have hxx : (Real.sign L * √(1 - zm)) ^ 2 = 1 - zm := by
    rw [mul_pow, hs2]; rcases hsg with h | h <;> rw [h] <;> ring
  refine ⟨_, _, Real.sign L * √(1 - zm), ?_, rfl, rfl, ?_, ?_, ?_, ?_, ?_, ?_, ?_, ?_⟩
  · simp only [apexFromConstants, hrad, hz, bind_ok]; rfl
  · rw [show 1 - (r1 - r2) / (r1 + r2) = 2 * r2 / (r1 + r2) by field_simp; ring]
    field_simp
  · rw [show 1 + (r1 - r2) / (r1 + r2) = 2 * r1 / (r1 + r2) by field_simp; ring]
    field_simp
  · exact div_nonneg (by linarith) (by linarith)
  · rw [div_lt_one (by linarith)]; linarith
  · rcases hsg with h | h
    · rw [h, one_mul, Real.sign_of_pos hs]
    · rw [h, Real.sign_of_neg (by linarith)]
  · rcases hsg with h | h <;> rw [h]
    · linarith
    · have : -1 * √(1 - zm) < 0 := by linarith
      exact this.ne
  · rw [hxx, hf]; ring
  · intro hQ
    have h0 : Spec.Zpol a E L Q 0 = Q := by unfold Spec.Zpol; ring
    rw [hf] at h0
    have hA : 0 < a ^ 2 * (1 - E ^ 2) := by positivity
    have : 0 ≤ a ^ 2 * (1 - E ^ 2) * zp * zm := by linarith
    have hzm : 0 ≤ zm := by
      by_contra hneg
      have := mul_neg_of_pos_of_neg (mul_pos hA (by linarith : 0 < zp)) (not_le.mp hneg)
      linarith
    rw [← sq_le_one_iff_abs_le_one, hxx]; linarith

/-- The parameters stored in a stable `Orbit` have the constants of the initial velocity. -/
lemma orbit_roundtrip {rs : RootScalar} {a : ℝ} {pos vel : Vec4} {M mu : Option ℝ} {o : OrbitObj}
    {p e x E L Q r1 r2 r3 r4 : ℝ} (ha : 0 < a) (ho : mkOrbit rs a pos vel M mu = .ok o)
    (hst : o.stable = true) (hcs : o.consts = (E, L, Q)) (hap : o.apex = (p, e, x))
    (hE0 : 0 < E) (hE : E < 1) (hL : L ≠ 0) (hR : Spec.RadialRoots a E L Q r1 r2 r3 r4)
    (h43 : r4 ≤ r3) (h32 : r3 < r2) (h21 : r2 ≤ r1) (h2 : 0 < r2)
    (hp : 0 < x → p ≤ 4 → Spec.DivisorsNonzero a p e x) :
    constantsOfMotion rs a p e x = .ok (E, L, Q) ∧ Spec.BoundOrbit rs a p e x := by
  obtain ⟨E', L', Q', p', e', x', m, hc, hapx, hm, hq, hoa, hoap, hocs, hou, hout⟩ :=
    mkOrbit_stable ho hst
  obtain ⟨rfl, rfl, rfl⟩ : E' = E ∧ L' = L ∧ Q' = Q := by
    rw [hocs] at hcs; simpa using hcs
  obtain ⟨rfl, rfl, rfl⟩ : p' = p ∧ e' = e ∧ x' = x := by
    rw [hoap] at hap; simpa using hap
  obtain ⟨hb, hx0, he1⟩ := (C12_frequency_contract rs a p' e' x' none none none).2.2.2.2.1.1.mp ⟨m, hm⟩
  obtain ⟨p, e, x, hapx', -, -, d1, d2, -, -, hs, -, hZ, -⟩ :=
    apex_of_roots ha.ne' (by nlinarith) hL hR h43 h32.le h21 h2
  have := Except.ok.inj (hapx.symm.trans hapx')
  simp only [Prod.mk.injEq, true_and] at this
  obtain ⟨rfl, rfl, rfl⟩ := this
  exact ⟨C09_constants_stable rs a p' e' x' E' L' Q' r3 r4 hb ha he1 hx0 hp hE0 (by nlinarith) hs
    (by rw [d1, d2]; exact hR) h43 (by rw [d2]; exact h32) hZ, hb⟩

section
variable {rs : RootScalar} {a : ℝ} {pos vel : Vec4} {M mu : Option ℝ} {o : OrbitObj}
  {p e x E L Q r1 r2 r3 r4 : ℝ} (ha : 0 < a) (ho : mkOrbit rs a pos vel M mu = .ok o)
  (hst : o.stable = true) (hcs : o.consts = (E, L, Q)) (hap : o.apex = (p, e, x))
  (hE0 : 0 < E) (hE : E < 1) (hL : L ≠ 0)
  (hnorm : norm4 a pos.t pos.r pos.theta pos.phi vel = -1) (h0 : 0 < pos.theta) (hpi : pos.theta < π)
  (hS : Spec.Sigma a pos.r pos.theta ≠ 0) (hD : Spec.Delta a pos.r ≠ 0)
  (hh : ∀ rh, Spec.Delta a rh = 0 → E * (rh ^ 2 + a ^ 2) ≠ a * L)
  (hR : Spec.RadialRoots a E L Q r1 r2 r3 r4) (h43 : r4 ≤ r3) (h32 : r3 + 1e-4 < r2) (h21 : r2 ≤ r1)
  (hp : 0 < x → p ≤ 4 → Spec.DivisorsNonzero a p e x)
include ha ho hst hcs hap hE0 hE hL hnorm h0 hpi hS hD hh hR h43 h32 h21 hp

/-- The hypotheses of C34 and C35. -/
lemma stable_hyps : Spec.BoundGeodesic a E L Q r1 r2 r3 r4
    ∧ constantsOfMotion rs a p e x = .ok (E, L, Q) ∧ r2 ≤ pos.r ∧ pos.r ≤ r1 := by
  have hE2 : E ^ 2 < 1 := by nlinarith
  have h32' : r3 < r2 := by norm_num at h32; linarith
  have ha1 : a ^ 2 < 1 := by
    obtain ⟨E', L', Q', p', e', x', m, -, -, hm, -⟩ := mkOrbit_stable ho hst
    obtain ⟨hb, -, -⟩ := (C12_frequency_contract rs a p' e' x' none none none).2.2.2.2.1.1.mp ⟨m, hm⟩
    have := hb.1
    rw [abs_of_pos ha] at this
    nlinarith
  obtain ⟨k1, k2, k3, -⟩ := (C48_four_real ho ha1 hcs hE2 hS hD
    (Real.sin_pos_of_pos_of_lt_pi h0 hpi).ne' hnorm hh hR h43 h32 h21).1 hst
  have hs := Real.sqrt_nonneg (1 - a ^ 2)
  exact ⟨⟨hE2, hL, hR, h43, h32', h21, k3⟩,
    (orbit_roundtrip ha ho hst hcs hap hE0 hE hL hR h43 h32' h21 (by linarith) hp).1, k1, k2⟩

/-- **C34.** A stable `Orbit` built from a normalised initial velocity with constants `0 < E < 1`,
`L ≠ 0`, whose radial potential has four real roots (the two ranges of motion further apart than the
classification tolerance, no horizon among the roots), starts at its initial position.  (For a prograde orbit
with `p ≤ 4` the divisors in the formulas for `E` and `L` must not vanish.) -/
theorem C34_stable :
    ∃ T, o.trajectoryNat rs = .ok T ∧ T.t 0 = pos.t ∧ T.phi 0 = pos.phi
      ∧ |T.r 0 - pos.r| < 1e-4 ∧ |T.theta 0 - pos.theta| < 1e-4
      ∧ (Spec.ClearOf 1e-4 pos.r r1 → Spec.ClearOf 1e-4 pos.r r2 → T.r 0 = pos.r)
      ∧ (Spec.ClearOf 1e-4 pos.theta (arccos (√(1 - x ^ 2)))
        → Spec.ClearOf 1e-4 pos.theta (π - arccos (√(1 - x ^ 2))) → T.theta 0 = pos.theta) := by
  obtain ⟨hb, hrt, k1, k2⟩ :=
    stable_hyps ha ho hst hcs hap hE0 hE hL hnorm h0 hpi hS hD hh hR h43 h32 h21 hp
  exact C34_position ha ho hst hcs hap hb hrt k1 k2 h0 hpi

/-- **C35.** Under the hypotheses of `C34_stable`, away from (or exactly at) the turning points, the
trajectory starts at the initial position with the initial velocity, signs included. -/
theorem C35_stable (c1 : Spec.ClearOf 1e-4 pos.r r1) (c2 : Spec.ClearOf 1e-4 pos.r r2)
    (c3 : Spec.ClearOf 1e-4 pos.theta (arccos (√(1 - x ^ 2))))
    (c4 : Spec.ClearOf 1e-4 pos.theta (π - arccos (√(1 - x ^ 2)))) :
    ∃ T U, o.trajectoryNat rs = .ok T ∧ T.at 0 = pos ∧ o.fourVelocity rs = .ok U ∧ U.at 0 = vel := by
  obtain ⟨hb, hrt, k1, k2⟩ :=
    stable_hyps ha ho hst hcs hap hE0 hE hL hnorm h0 hpi hS hD hh hR h43 h32 h21 hp
  obtain ⟨T, hT, ht, hphi, -, -, hr, hth⟩ := C34_position ha ho hst hcs hap hb hrt k1 k2 h0 hpi
  obtain ⟨U, hU, hU0⟩ := C35_velocity ha ho hst hcs hap hb hrt k1 k2 h0 hpi hnorm c1 c2 c3 c4
  refine ⟨T, U, hT, ?_, hU, hU0⟩
  have h1 := hr c1 c2
  have h2 := hth c3 c4
  cases pos
  simp only [Traj.at, ht, hphi, h1, h2]

end

/-- **C34 (constructibility of stable orbits).** A normalised initial velocity with `0 < E < 1`, `L ≠ 0`
and four real radial roots, starting in the outer range of motion `[r2, r1]` outside the inner horizon,
is accepted by `Orbit` as a stable orbit as soon as the parameters `p = 2 r1 r2/(r1+r2)`,
`e = (r1-r2)/(r1+r2)`, `x = ±√(1-z)` are above the separatrix. -/
theorem C34_stable_constructible (rs : RootScalar) {a E L Q r1 r2 r3 r4 : ℝ} {pos vel : Vec4}
    (M mu : Option ℝ) (ha : 0 < a) (hc : constantsFromInitialConditions a pos vel = .ok (E, L, Q))
    (hnorm : norm4 a pos.t pos.r pos.theta pos.phi vel = -1) (hE : E ^ 2 < 1) (hL : L ≠ 0)
    (hR : Spec.RadialRoots a E L Q r1 r2 r3 r4) (h43 : r4 ≤ r3) (h32 : r3 ≤ r2) (h21 : r2 ≤ r1)
    (hin : 1 - √(1 - a ^ 2) < r2) (h2 : 0 < r2) (hr2 : r2 ≤ pos.r) (hr1 : pos.r ≤ r1)
    (hacc : ∀ x, Real.sign x = Real.sign L → Spec.Zpol a E L Q (1 - x ^ 2) = 0 → (0 ≤ Q → |x| ≤ 1) →
      Spec.BoundOrbit rs a (2 * r1 * r2 / (r1 + r2)) ((r1 - r2) / (r1 + r2)) x) :
    ∃ o x, mkOrbit rs a pos vel M mu = .ok o ∧ o.stable = true ∧ o.consts = (E, L, Q)
      ∧ o.apex = (2 * r1 * r2 / (r1 + r2), (r1 - r2) / (r1 + r2), x)
      ∧ Real.sign x = Real.sign L ∧ Spec.Zpol a E L Q (1 - x ^ 2) = 0 ∧ (0 ≤ Q → |x| ≤ 1) := by
  have hg : orbitNormGuard a pos vel = .ok () := by
    unfold orbitNormGuard raiseIf
    rw [hnorm]
    norm_num [bind, Except.bind]
  obtain ⟨c1, -⟩ := C36_four_real a E L Q 1e-4 r1 r2 r3 r4 pos vel hE.ne hR h43 h32 h21
  have hcl := c1 ⟨hin, by norm_num; exact ⟨by linarith, by linarith⟩⟩
  have hcl' : icIsStable a pos vel = .ok true := by
    unfold icIsStable at hcl ⊢
    simp only [icConstantsOr, hc, bind_ok, pure, Except.pure] at hcl ⊢
    exact hcl
  obtain ⟨zm, zp, hz, -⟩ := polarRootsNumpy_real (Q := Q) ha.ne' (by linarith : 0 < 1 - E ^ 2) hL
  have hrad : radialRootsNumpy a E L Q = .ok (r4, r3, r2, r1) := by
    have := npRoots_radial_real (a := a) (E := E) (L := L) (Q := Q) (lead := -(1 - E ^ 2))
      (s0 := r4) (s1 := r3) (s2 := r2) (s3 := r1) (by linarith)
      (fun r => by rw [hR]; ring) h43 h32 h21
    rw [radialRootsNumpy, this]
    simp
  obtain ⟨p, e, x, hap, hp, he, -, -, -, he1, hs, hx0, hZ, hx⟩ :=
    apex_of_roots ha.ne' hE hL hR h43 h32 h21 h2
  subst hp he
  have hb := hacc x hs.symm hZ hx
  obtain ⟨-, -, -, -, k5, k6⟩ := C12_frequency_contract rs a _ _ x none none none
  obtain ⟨m, hm⟩ := k5.1.mpr ⟨hb, hx0, he1.ne⟩
  obtain ⟨om, hom⟩ := k6.1.mpr ⟨hb, hx0, he1.ne⟩
  have hph : ∃ q, stableOrbitInitialPhases a pos vel = .ok q := by
    unfold stableOrbitInitialPhases
    simp only [icConstantsOr, hc, hrad, hz, bind_ok, pure, Except.pure]
    exact ⟨_, rfl⟩
  obtain ⟨q, hq⟩ := hph
  have ho : ∃ o, mkOrbit rs a pos vel M mu = .ok o ∧ o.stable = true ∧ o.consts = (E, L, Q)
      ∧ o.apex = (2 * r1 * r2 / (r1 + r2), (r1 - r2) / (r1 + r2), x) := by
    unfold mkOrbit
    simp only [hg, hc, hcl', hap, hm, hom, hq, bind_ok, if_true]
    exact ⟨_, rfl, rfl, rfl, rfl⟩
  obtain ⟨o, h1, h2, h3, h4⟩ := ho
  exact ⟨o, x, h1, h2, h3, h4, hs.symm, hZ, hx⟩

/-- **C34 (every bound geodesic can be built).** A normalised initial velocity with `0 < E < 1`, `L ≠ 0` and
four real radial roots `r4 ≤ r3 < r2 ≤ r1`, starting in the outer range of motion `[r2, r1]` with `r2` outside
the horizon, is accepted by `Orbit` as a stable orbit, with `p = 2 r1 r2/(r1+r2)`, `e = (r1-r2)/(r1+r2)`.  No
condition on the separatrix is needed. -/
theorem C34_stable_accepted (rs : RootScalar) {a E L Q r1 r2 r3 r4 : ℝ} {pos vel : Vec4}
    (M mu : Option ℝ) (ha : 0 < a) (ha1 : a < 1)
    (hc : constantsFromInitialConditions a pos vel = .ok (E, L, Q))
    (hnorm : norm4 a pos.t pos.r pos.theta pos.phi vel = -1) (hth : sin pos.theta ≠ 0)
    (hE0 : 0 < E) (hE1 : E < 1) (hL : L ≠ 0)
    (hR : Spec.RadialRoots a E L Q r1 r2 r3 r4) (h43 : r4 ≤ r3) (h32 : r3 < r2) (h21 : r2 ≤ r1)
    (hout : 1 + √(1 - a ^ 2) < r2) (hr2 : r2 ≤ pos.r) (hr1 : pos.r ≤ r1) :
    ∃ o x, mkOrbit rs a pos vel M mu = .ok o ∧ o.stable = true ∧ o.consts = (E, L, Q)
      ∧ o.apex = (2 * r1 * r2 / (r1 + r2), (r1 - r2) / (r1 + r2), x)
      ∧ Real.sign x = Real.sign L ∧ Spec.Zpol a E L Q (1 - x ^ 2) = 0 ∧ |x| ≤ 1 := by
  have hE2 : E ^ 2 < 1 := by nlinarith
  have hs := Real.sqrt_nonneg (1 - a ^ 2)
  have hA : 0 ≤ 1 - a ^ 2 := by nlinarith
  have hss := Real.sq_sqrt hA
  have h2 : 0 < r2 := by linarith
  have h1 : 0 < r1 := by linarith
  have hD : Spec.Delta a pos.r ≠ 0 := by
    have : 0 < Spec.Delta a pos.r := by
      have e1 : Spec.Delta a pos.r = (pos.r - 1 - √(1 - a ^ 2)) * (pos.r - 1 + √(1 - a ^ 2)) := by
        unfold Spec.Delta; linear_combination hss
      rw [e1]; exact mul_pos (by linarith) (by linarith)
    exact this.ne'
  have hS : Spec.Sigma a pos.r pos.theta ≠ 0 := by
    have : 0 < pos.r := by linarith
    unfold Spec.Sigma; positivity
  obtain ⟨hQ, -⟩ := carter_nonneg hE2 hS hD hth hc
  have e1 : 1 - (r1 - r2) / (r1 + r2) = 2 * r2 / (r1 + r2) := by field_simp; ring
  have e2 : 1 + (r1 - r2) / (r1 + r2) = 2 * r1 / (r1 + r2) := by field_simp; ring
  have d1 : 2 * r1 * r2 / (r1 + r2) / (1 - (r1 - r2) / (r1 + r2)) = r1 := by rw [e1]; field_simp
  have d2 : 2 * r1 * r2 / (r1 + r2) / (1 + (r1 - r2) / (r1 + r2)) = r2 := by rw [e2]; field_simp
  have he : 0 ≤ (r1 - r2) / (r1 + r2) := div_nonneg (by linarith) (by linarith)
  have he1 : (r1 - r2) / (r1 + r2) < 1 := by rw [div_lt_one (by linarith)]; linarith
  obtain ⟨o, x, k1, k2, k3, k4, k5, k6, k7⟩ := C34_stable_constructible rs M mu ha hc hnorm hE2 hL hR h43 h32.le
    h21 (by linarith) h2 hr2 hr1 (by
      intro x hsx hZ hx
      refine bound_of_stable rs ha.le ha1 he he1 (hx hQ) ?_
      refine ⟨by rw [d2]; exact hout, E, L, Q, r3, r4, hE0, hE1, hsx.symm, hQ, hZ, ?_, h43, by rw [d2]; exact h32⟩
      rw [d1, d2]; exact hR)
  exact ⟨o, x, k1, k2, k3, k4, k5, k6, k7 hQ⟩

/-- Non-vacuity of C34/C35/C48 for stable orbits: the potential of `exReal_roots` from `r = 10` on the
equator, moving inwards and away from the pole. -/
example (rs : RootScalar) : ∃ vel o T U,
    mkOrbit rs (12 / 13) ⟨1, 10, π / 2, 3⟩ vel none none = .ok o ∧ o.stable = true
    ∧ vel.r < 0 ∧ 0 < vel.theta
    ∧ o.trajectoryNat rs = .ok T ∧ T.at 0 = ⟨1, 10, π / 2, 3⟩ ∧ o.fourVelocity rs = .ok U
    ∧ U.at 0 = vel := by
  have hpi := Real.pi_pos
  have hE0 := exE_pos
  have hE2 := exE_sq
  have hE : exE ^ 2 < 1 := by rw [hE2]; norm_num
  have hE1 : exE < 1 := by nlinarith
  have hS : Spec.Sigma (12 / 13) 10 (π / 2) = 100 := by simp [Spec.Sigma]; norm_num
  have hD : Spec.Delta (12 / 13) 10 ≠ 0 := by norm_num [Spec.Delta]
  have hR : 0 < Spec.R (12 / 13) exE (12 / 13 * exE) (8294400 / 679439) 10 := by
    rw [exReal_roots, hE2]; norm_num
  have hT : Spec.Theta (12 / 13) exE (12 / 13 * exE) (8294400 / 679439) (π / 2) = 8294400 / 679439 := by
    simp [Spec.Theta]
  obtain ⟨hc, hn⟩ := velocityOf_ok (a := 12 / 13) (E := exE) (L := 12 / 13 * exE)
    (Q := 8294400 / 679439) (sr := -1) (sθ := 1) (pos := ⟨1, 10, π / 2, 3⟩) (by norm_num) (by norm_num)
    (by simp only [hS]; norm_num) hD (by simp) hR.le (by simp only [hT]; norm_num)
  have hL0 : 0 < 12 / 13 * exE := by positivity
  obtain ⟨o, x, ho, hst, hcs, hap, hsx, hZ, hx1⟩ := C34_stable_accepted rs none none (by norm_num)
    (by norm_num) hc hn (by simp) hE0 hE1 hL0.ne' exReal_roots (by norm_num) (by norm_num) (by norm_num)
    (by rw [exHorizon]; norm_num) (by norm_num) (by norm_num)
  have hxz : x ^ 2 ≤ 3 / 4 := by
    have hx2 : x ^ 2 ≤ 1 := by rw [← sq_abs]; nlinarith [abs_nonneg x]
    unfold Spec.Zpol at hZ
    rw [mul_pow, hE2] at hZ
    nlinarith
  have h2 : 1 / 2 ≤ arcsin (√(1 - x ^ 2)) := by
    have hs : 1 / 2 ≤ √(1 - x ^ 2) := by
      rw [show (1 / 2 : ℝ) = √(1 / 4) by
        rw [show (1 / 4 : ℝ) = (1 / 2) ^ 2 by norm_num, Real.sqrt_sq (by norm_num)]]
      exact Real.sqrt_le_sqrt (by linarith)
    have hs1 : √(1 - x ^ 2) ≤ 1 := Real.sqrt_le_one.mpr (by nlinarith [sq_nonneg x])
    have h3 : 0 ≤ arcsin (√(1 - x ^ 2)) := Real.arcsin_nonneg.mpr (Real.sqrt_nonneg _)
    have := Real.sin_le h3
    rw [Real.sin_arcsin (by linarith) hs1] at this
    linarith
  obtain ⟨T, U, h⟩ := C35_stable (by norm_num) ho hst hcs hap hE0 hE1 hL0.ne' hn
    (by simp only []; positivity) (by simp only []; linarith) (by simp only [hS]; norm_num) hD (by
      intro rh _ heq
      have : exE * rh ^ 2 = 0 := by linear_combination heq
      have hr0 : rh = 0 := by
        rcases mul_eq_zero.mp this with h | h
        · exact absurd h hE0.ne'
        · exact pow_eq_zero_iff (two_ne_zero) |>.mp h
      rename_i hdel
      rw [hr0] at hdel
      norm_num [Spec.Delta] at hdel) exReal_roots (by norm_num) (by norm_num) (by norm_num)
    (fun _ h => absurd h (by norm_num)) (.inr (by norm_num [abs_of_neg])) (.inr (by norm_num [abs_of_pos]))
    (by
      rw [Real.arccos]
      right
      rw [abs_of_nonneg (by simp only []; linarith)]
      simp only []
      norm_num; linarith)
    (by
      rw [Real.arccos]
      right
      rw [abs_of_nonpos (by simp only []; linarith)]
      simp only []
      norm_num; linarith)
  refine ⟨_, o, T, U, ho, hst, ?_, ?_, h⟩
  · simp only [Spec.velocityOf, hS]
    have := Real.sqrt_pos.mpr hR
    linarith
  · simp only [Spec.velocityOf, hS, hT]
    have : 0 < √(8294400 / 679439 : ℝ) := Real.sqrt_pos.mpr (by norm_num)
    linarith

end KGP
