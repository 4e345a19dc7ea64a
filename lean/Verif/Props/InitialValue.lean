import Verif.Props.GeodesicEquation
import Verif.Props.Restart
import Verif.Props.Classify
import Verif.Lemmas.GeodesicUnique

/-!
# C54: an orbit is the solution of the initial value problem of the geodesic equation
-/

namespace KGP

open Classical Real Matrix Filter Topology

lemma toVec_at (T : Traj) (l : ℝ) : (T.at l).toVec = T.toCurve l := rfl

section
variable {rs : RootScalar} {a p e x : ℝ} {q : Phases} {T : Traj} {m : MinoFreqs}
  {E L Q r1 r2 r3 r4 : ℝ} (ha : 0 ≤ a) (hT : stableTrajectoryNat rs a p e x q = .ok T)
  (hm : minoFrequencies rs a p e x = .ok m)
  (hc : constantsOfMotion rs a p e x = .ok (E, L, Q))
  (hr : stableRadialRoots rs a p e x = .ok (r1, r2, r3, r4))
  (hb : Spec.BoundGeodesic a E L Q r1 r2 r3 r4)
include ha hT hm hc hr hb

/-- **C54.** Every stable trajectory outside the horizon, parametrised by proper time, is the geodesic of the
metric whose initial data are its position and four-velocity at Mino time `0`. -/
theorem C54_stable :
    let U := fourVelocity a T (E, L, Q) m.upsilonR m.upsilonTheta q
    ∃ tau mino : ℝ → ℝ, tau 0 = 0 ∧ StrictMono tau ∧ (∀ l, mino (tau l) = l) ∧ (∀ s, tau (mino s) = s)
      ∧ (∀ l, HasDerivAt tau (Spec.Sigma a (T.r l) (T.theta l)) l)
      ∧ Spec.TheGeodesicFrom (kerrMetric a) (T.at 0).toVec (U.at 0).toVec
          (fun s => T.toCurve (mino s)) (fun s => U.toCurve (mino s)) := by
  intro U
  obtain ⟨tau, mino, h0, h1, h2, h3, h4, h5⟩ := C53_proper_time ha hT hm hc hr hb
  have hz : mino 0 = 0 := by have := h2 0; rwa [h0] at this
  refine ⟨tau, mino, h0, h1, h2, h3, h4, h5, by simp only [hz, toVec_at], by simp only [hz, toVec_at], ?_⟩
  intro s₁ s₂ k1 k2 Y W hYW hY hW s hs1 hs2
  obtain ⟨m', zm, zp, D⟩ := stableData_of ha hT hc hr
  have := geodesic_unique (a := a) (ρ := fun _ => 1) (s₁ := s₁) (s₂ := s₂) (s₀ := 0) contDiff_const ⟨k1, k2⟩
    (fun s _ => (h5 s).1) (fun s hs => hYW s hs.1 hs.2) (fun s _ => ?_)
    (by simp only [hY, toVec_at, hz]) (by simp only [hW, toVec_at, hz]; rfl) s ⟨hs1, hs2⟩
  · exact ⟨this.1.symm, this.2.symm⟩
  · have o := D.outside hb (mino s)
    refine ⟨?_, o.1.ne', (D.polarEq hb (mino s)).2.1.ne'⟩
    have : 0 < T.r (mino s) := by linarith [Real.sqrt_nonneg (1 - a ^ 2), o.2]
    change Spec.Sigma a (T.r (mino s)) (T.theta (mino s)) ≠ 0
    unfold Spec.Sigma; positivity

end

/-- **C53, C54 for `StableOrbit`, from the parameters alone, for either sign of the spin.** Every `StableOrbit` (for a
prograde one assume that `r₊` is not a root of its radial potential and, if `p ≤ 4`, that the divisors in the
formulas for `E` and `L` do not vanish), parametrised by proper time, is the timelike geodesic of the Kerr metric of the
orbit's own spin `|a|` with initial data `initial_position` and `initial_velocity`; its tangent is the
four-velocity of the orbit. -/
theorem C54_stable_orbit (rs : RootScalar) (a p e x : ℝ) (q : Phases) (M mu : Option ℝ) (o : OrbitObj)
    (pos0 vel0 : Vec4) (ho : mkStableOrbit rs a p e x q M mu = .ok (o, pos0, vel0))
    (hp : 0 < Spec.signedX a x → p ≤ 4 → Spec.DivisorsNonzero a p e x)
    (hne : Spec.signedX a x < 0 ∨ ∀ E L Q, constantsOfMotion rs a p e x = .ok (E, L, Q) →
      E * ((1 + √(1 - a ^ 2)) ^ 2 + a ^ 2) ≠ |a| * L) :
    ∃ T U, o.trajectoryNat rs = .ok T ∧ o.fourVelocity rs = .ok U ∧ o.a = |a|
      ∧ ∃ tau mino : ℝ → ℝ, tau 0 = 0 ∧ StrictMono tau ∧ (∀ l, mino (tau l) = l) ∧ (∀ s, tau (mino s) = s)
      ∧ (∀ l, HasDerivAt tau (Spec.Sigma o.a (T.r l) (T.theta l)) l)
      ∧ Spec.TheGeodesicFrom (kerrMetric o.a) pos0.toVec vel0.toVec
          (fun s => T.toCurve (mino s)) (fun s => U.toCurve (mino s)) := by
  obtain ⟨h, hx0, he1⟩ := (C41_constructible rs a p e x q M mu).mp ⟨_, ho⟩
  obtain ⟨h', hcc, hdd⟩ := bound_std h
  obtain ⟨T1, m, E, L, Q, r1, r2, r3, r4, hT1, hm, hc, hr, hb, -⟩ :=
    orbit_hyps q h' (abs_nonneg a) he1 (by rwa [Ne, signedX_eq_zero]) (fun h1 h2 => hdd.mpr (hp h1 h2))
      (hne.imp_right fun h E L Q hc => by rw [sq_abs]; exact h E L Q (hcc ▸ hc))
  obtain ⟨k1, k2, k3, -, -, k6, k7, k8, -, ⟨T, U, hT, hU, g1, g2, g3, g4⟩, -⟩ :=
    C41_attributes rs a p e x q M mu o pos0 vel0 ho
  obtain rfl : T1 = T := Except.ok.inj (hT1.symm.trans g4)
  have hcs : o.consts = (E, L, Q) := Except.ok.inj ((hcc.trans k7).symm.trans hc)
  have hm' : minoFrequencies rs |a| p e (Spec.signedX a x) = minoFrequencies rs a p e x := by
    rw [← sx_eq, abs_eq_sa, minoFrequencies_eq, minoFrequencies_eq, sa_sa, sx_sa]
  have hmm := Except.ok.inj ((hm'.trans k8).symm.trans hm)
  have u1 : o.upsilonR = m.upsilonR := by rw [← hmm]
  have u2 : o.upsilonTheta = m.upsilonTheta := by rw [← hmm]
  obtain rfl : fourVelocity |a| T1 (E, L, Q) m.upsilonR m.upsilonTheta q = U := by
    unfold OrbitObj.fourVelocity at hU
    simp only [Option.getD_none, k6, g3, bind_ok, pure, Except.pure, k1, hcs, u1, u2] at hU
    exact Except.ok.inj hU
  refine ⟨T1, _, hT, hU, k1, ?_⟩
  rw [k1, ← g1, ← g2]
  exact C54_stable (abs_nonneg a) hT1 hm hc hr hb

/-- Non-vacuity of C53 and C54: a retrograde inclined eccentric orbit around a spinning hole, any phases. -/
example (rs : RootScalar) (q : Phases) : ∃ o pos0 vel0 T U,
    mkStableOrbit rs (9 / 10) 13 (1 / 2) (-1 / 2) q = .ok (o, pos0, vel0)
    ∧ o.trajectoryNat rs = .ok T ∧ o.fourVelocity rs = .ok U
    ∧ ∃ mino : ℝ → ℝ, Spec.TheGeodesicFrom (kerrMetric o.a) pos0.toVec vel0.toVec
          (fun s => T.toCurve (mino s)) (fun s => U.toCurve (mino s)) := by
  have hB : Spec.BoundOrbit rs (9 / 10) 13 (1 / 2) (-1 / 2) :=
    C11_accepts_wide rs _ _ _ _ (by norm_num [abs_lt]) (by norm_num) (by norm_num)
      (by norm_num [abs_le]) (by norm_num)
  obtain ⟨⟨o, pos0, vel0⟩, ho⟩ := (C41_constructible rs (9 / 10) 13 (1 / 2) (-1 / 2) q none none).mpr
    ⟨hB, by norm_num, by norm_num⟩
  have hs : Spec.signedX (9 / 10) (-1 / 2) = -1 / 2 := by unfold Spec.signedX; norm_num
  obtain ⟨T, U, hT, hU, -, tau, mino, -, -, -, -, -, hG⟩ := C54_stable_orbit rs (9 / 10) 13 (1 / 2) (-1 / 2) q
    none none o pos0 vel0 ho (fun h => absurd h (by rw [hs]; norm_num)) (.inl (by rw [hs]; norm_num))
  exact ⟨o, pos0, vel0, T, U, ho, hT, hU, mino, hG⟩

/-- Non-vacuity for negative spin: the same orbit given as `a < 0`, `x > 0`. -/
example (rs : RootScalar) (q : Phases) : ∃ o pos0 vel0 T U,
    mkStableOrbit rs (-9 / 10) 13 (1 / 2) (1 / 2) q = .ok (o, pos0, vel0) ∧ o.a = 9 / 10
    ∧ o.trajectoryNat rs = .ok T ∧ o.fourVelocity rs = .ok U
    ∧ ∃ mino : ℝ → ℝ, Spec.TheGeodesicFrom (kerrMetric o.a) pos0.toVec vel0.toVec
          (fun s => T.toCurve (mino s)) (fun s => U.toCurve (mino s)) := by
  have hB : Spec.BoundOrbit rs (-9 / 10) 13 (1 / 2) (1 / 2) :=
    C11_accepts_wide rs _ _ _ _ (by norm_num [abs_lt]) (by norm_num) (by norm_num)
      (by norm_num [abs_le]) (by norm_num)
  obtain ⟨⟨o, pos0, vel0⟩, ho⟩ := (C41_constructible rs (-9 / 10) 13 (1 / 2) (1 / 2) q none none).mpr
    ⟨hB, by norm_num, by norm_num⟩
  have hs : Spec.signedX (-9 / 10) (1 / 2) = -1 / 2 := by unfold Spec.signedX; norm_num
  obtain ⟨T, U, hT, hU, hoa, tau, mino, -, -, -, -, -, hG⟩ := C54_stable_orbit rs (-9 / 10) 13 (1 / 2) (1 / 2) q
    none none o pos0 vel0 ho (fun h => absurd h (by rw [hs]; norm_num)) (.inl (by rw [hs]; norm_num))
  exact ⟨o, pos0, vel0, T, U, ho, by rw [hoa, abs_of_neg] <;> norm_num, hT, hU, mino, hG⟩

/-- **C54, C34, C35 for `Orbit`.** Let `0 < a < 1` and let a position off the axis and a unit timelike velocity be given
whose constants satisfy `0 < E < 1`, `L ≠ 0` and whose radial potential has four real roots with the position in
the outer range of motion, outside the horizon (and the horizon is not itself a root).  Then `Orbit` accepts the initial conditions as a stable
orbit, and if the position is exactly at a turning point or at least the classification tolerance `1e-4` away from it
(in `r` and in `θ`), the orbit's trajectory, parametrised by proper time, is the geodesic of the metric with
exactly this initial position and velocity, and its tangent is the orbit's four-velocity. -/
theorem C54_initial_conditions (rs : RootScalar) {a E L Q r1 r2 r3 r4 : ℝ} {pos vel : Vec4}
    (M mu : Option ℝ) (ha : 0 < a) (ha1 : a < 1)
    (hc : constantsFromInitialConditions a pos vel = .ok (E, L, Q))
    (hnorm : norm4 a pos.t pos.r pos.theta pos.phi vel = -1) (h0 : 0 < pos.theta) (hpi : pos.theta < π)
    (hE0 : 0 < E) (hE1 : E < 1) (hL : L ≠ 0)
    (hR : Spec.RadialRoots a E L Q r1 r2 r3 r4) (h43 : r4 ≤ r3) (h32 : r3 < r2) (h21 : r2 ≤ r1)
    (hout : 1 + √(1 - a ^ 2) < r2) 
    (hne : E * ((1 + √(1 - a ^ 2)) ^ 2 + a ^ 2) ≠ a * L) (hr2 : r2 ≤ pos.r) (hr1 : pos.r ≤ r1)
    (hp : ∀ x, 0 < x → 2 * r1 * r2 / (r1 + r2) ≤ 4 →
      Spec.DivisorsNonzero a (2 * r1 * r2 / (r1 + r2)) ((r1 - r2) / (r1 + r2)) x) :
    ∃ o p e x, mkOrbit rs a pos vel M mu = .ok o ∧ o.stable = true ∧ o.consts = (E, L, Q)
      ∧ o.apex = (p, e, x) ∧ p / (1 - e) = r1 ∧ p / (1 + e) = r2 ∧ |x| ≤ 1
      ∧ (Spec.ClearOf 1e-4 pos.r r1 → Spec.ClearOf 1e-4 pos.r r2 →
        Spec.ClearOf 1e-4 pos.theta (arccos (√(1 - x ^ 2))) →
        Spec.ClearOf 1e-4 pos.theta (π - arccos (√(1 - x ^ 2))) →
        ∃ T U, o.trajectoryNat rs = .ok T ∧ o.fourVelocity rs = .ok U ∧ T.at 0 = pos ∧ U.at 0 = vel
          ∧ ∃ tau mino : ℝ → ℝ, tau 0 = 0 ∧ StrictMono tau ∧ (∀ l, mino (tau l) = l) ∧ (∀ s, tau (mino s) = s)
          ∧ (∀ l, HasDerivAt tau (Spec.Sigma a (T.r l) (T.theta l)) l)
          ∧ Spec.TheGeodesicFrom (kerrMetric a) pos.toVec vel.toVec
              (fun s => T.toCurve (mino s)) (fun s => U.toCurve (mino s))) := by
  have hE2 : E ^ 2 < 1 := by nlinarith
  have hs := Real.sqrt_nonneg (1 - a ^ 2)
  have h2 : 0 < r2 := by linarith
  have h1 : 0 < r1 := by linarith
  obtain ⟨o, x, g1, g2, g3, g4, g5, g6, g7⟩ := C34_stable_accepted rs M mu ha ha1 hc hnorm
    (Real.sin_pos_of_pos_of_lt_pi h0 hpi).ne' hE0 hE1 hL hR h43 h32 h21 hout hr2 hr1
  have d1 : 2 * r1 * r2 / (r1 + r2) / (1 - (r1 - r2) / (r1 + r2)) = r1 := by
    rw [show 1 - (r1 - r2) / (r1 + r2) = 2 * r2 / (r1 + r2) by field_simp; ring]
    field_simp
  have d2 : 2 * r1 * r2 / (r1 + r2) / (1 + (r1 - r2) / (r1 + r2)) = r2 := by
    rw [show 1 + (r1 - r2) / (r1 + r2) = 2 * r1 / (r1 + r2) by field_simp; ring]
    field_simp
  refine ⟨o, _, _, x, g1, g2, g3, g4, d1, d2, g7, fun c1 c2 c3 c4 => ?_⟩
  obtain ⟨hrt, hbo⟩ := orbit_roundtrip ha g1 g2 g3 g4 hE0 hE1 hL hR h43 h32 h21 h2 (hp x)
  have h3 : 1 + √(1 - a ^ 2) < r3 := by
    have hA : a ^ 2 ≤ 1 := by nlinarith
    have k := hR (1 + √(1 - a ^ 2))
    rw [R_horizon hA] at k
    have hk : 0 < (E * ((1 + √(1 - a ^ 2)) ^ 2 + a ^ 2) - a * L) ^ 2 := by
      have := sub_ne_zero.mpr hne
      positivity
    rw [k] at hk
    by_contra hcon
    have k0 : 0 < 1 - E ^ 2 := by linarith
    have k1 : 0 < r1 - (1 + √(1 - a ^ 2)) := by linarith
    have k2 : 1 + √(1 - a ^ 2) - r2 < 0 := by linarith
    have k3 : 0 ≤ 1 + √(1 - a ^ 2) - r3 := by linarith
    have k4 : 0 ≤ 1 + √(1 - a ^ 2) - r4 := by linarith
    exact absurd hk (not_lt.mpr (mul_nonpos_of_nonpos_of_nonneg (mul_nonpos_of_nonpos_of_nonneg
      (mul_nonpos_of_nonneg_of_nonpos (mul_pos k0 k1).le k2.le) k3) k4))
  have hb : Spec.BoundGeodesic a E L Q r1 r2 r3 r4 := ⟨hE2, hL, hR, h43, h32, h21, h3⟩
  obtain ⟨T, hT, ht, hphi, -, -, hr, hth⟩ := C34_position ha g1 g2 g3 g4 hb hrt hr2 hr1 h0 hpi
  obtain ⟨U, hU, hU0⟩ := C35_velocity ha g1 g2 g3 g4 hb hrt hr2 hr1 h0 hpi hnorm c1 c2 c3 c4
  have hT0 : T.at 0 = pos := by
    have h1 := hr c1 c2
    have h2 := hth c3 c4
    cases pos
    simp only [Traj.at, ht, hphi, h1, h2]
  obtain ⟨m, zm, zp, D, hoa, hu, hut⟩ : ∃ m zm zp,
      StableData rs a _ _ x o.phases T m E L Q r1 r2 r3 r4 zm zp
      ∧ o.a = a ∧ o.upsilonR = m.upsilonR ∧ o.upsilonTheta = m.upsilonTheta := by
    obtain ⟨T', m, zm, zp, hT', D, hoa, hu, hut, -⟩ := orbit_data ha g1 g2 g3 g4 hb hrt hr2 h0 hpi
    obtain rfl : T' = T := Except.ok.inj (hT'.symm.trans hT)
    exact ⟨m, zm, zp, D, hoa, hu, hut⟩
  have hT1 : stableTrajectoryNat rs a (2 * r1 * r2 / (r1 + r2)) ((r1 - r2) / (r1 + r2)) x o.phases = .ok T := by
    rw [← hT]
    unfold OrbitObj.trajectoryNat
    simp only [Option.getD_none, g2, if_true, hoa, g4]
  have hUe : fourVelocity a T (E, L, Q) m.upsilonR m.upsilonTheta o.phases = U := by
    have hT3 : o.trajectoryNat rs (some o.phases) = .ok T := by rw [← hT]; rfl
    unfold OrbitObj.fourVelocity at hU
    simp only [Option.getD_none, hT3, bind_ok, pure, Except.pure, hoa, g3, hu, hut] at hU
    exact Except.ok.inj hU
  have hrr : stableRadialRoots rs a (2 * r1 * r2 / (r1 + r2)) ((r1 - r2) / (r1 + r2)) x
      = .ok (r1, r2, r3, r4) := by
    have hcore := stableRadialRootsCore_eq (E := E) (L := L) (Q := Q) hR (by linarith) h43 (by linarith) h1 h2 d1 d2
    unfold stableRadialRoots
    simp only [constantsOr, hrt, bind_ok, hcore]
    rfl
  refine ⟨T, U, hT, hU, hT0, hU0, ?_⟩
  rw [← hT0, ← hU0, ← hUe]
  exact C54_stable ha.le hT1 D.mino hrt hrr hb

/-! ## Plunges -/

/-- Uniqueness in Mino time. -/
lemma mino_unique {a l₁ l₂ l₀ : ℝ} {X V Y W : ℝ → Fin 4 → ℝ} (h₀ : l₁ < l₀ ∧ l₀ < l₂)
    (hX : ∀ l, l₁ < l → l < l₂ → Spec.GeodesicAt (kerrMetric a) X V (Spec.Sigma a (X l 1) (X l 2)) l)
    (hY : ∀ l, l₁ < l → l < l₂ → Spec.GeodesicAt (kerrMetric a) Y W (Spec.Sigma a (Y l 1) (Y l 2)) l)
    (hreg : ∀ l, l₁ < l → l < l₂ → Spec.Regular a (X l)) (hXY : Y l₀ = X l₀) (hVW : W l₀ = V l₀) :
    ∀ l, l₁ < l → l < l₂ → Y l = X l ∧ W l = V l := by
  intro l h1 h2
  have hρ : ContDiff ℝ 1 (fun Z : Fin 4 → ℝ => Spec.Sigma a (Z 1) (Z 2)) := by
    unfold Spec.Sigma; fun_prop
  have := geodesic_unique hρ (s₁ := l₁) (s₂ := l₂) h₀ (fun s hs => hX s hs.1 hs.2)
    (fun s hs => hY s hs.1 hs.2) (fun s hs => hreg s hs.1 hs.2) hXY.symm hVW.symm l ⟨h1, h2⟩
  exact ⟨this.1.symm, this.2.symm⟩

section
variable {a E L Q r1 r2 r3 r4 uR uTheta : ℝ} {q : Phases} {T : Traj}
  (ha : a ≠ 0) (ha1 : a ^ 2 < 1) (hE : E ^ 2 < 1) (hL : L ≠ 0)
  (hr : plungingRadialRoots a E L Q = .ok (.real r1 r2 r3 r4)) (hsep : r3 < r2 ∨ r1 < r4)
  (hu : plungingMinoFrequencies a E L Q = .ok (uR, uTheta))
  (hT : plungingTrajectoryNat a E L Q q = .ok T)
include ha ha1 hE hL hr hsep hu hT

/-- **C54 (plunges with four real roots).** On every interval of Mino time on which the particle meets no
horizon, the trajectory is the only geodesic with its initial data: any geodesic parametrised by Mino time
with the same position and velocity at one Mino time of the interval coincides with it. -/
theorem C54_real_plunge (hQ0 : 0 < Q)
    (hh : ∀ rh, Spec.Delta a rh = 0 → E * (rh ^ 2 + a ^ 2) ≠ a * L) {l₁ l₂ l₀ : ℝ} (h₀ : l₁ < l₀ ∧ l₀ < l₂)
    (hD : ∀ l, l₁ < l → l < l₂ → Spec.Delta a (T.r l) ≠ 0) (Y W : ℝ → Fin 4 → ℝ)
    (hY : ∀ l, l₁ < l → l < l₂ → Spec.GeodesicAt (kerrMetric a) Y W (Spec.Sigma a (Y l 1) (Y l 2)) l)
    (hY0 : Y l₀ = T.toCurve l₀)
    (hW0 : W l₀ = (fourVelocity a T (E, L, Q) uR uTheta q).toCurve l₀) :
    ∀ l, l₁ < l → l < l₂ →
      Y l = T.toCurve l ∧ W l = (fourVelocity a T (E, L, Q) uR uTheta q).toCurve l := by
  refine mino_unique h₀ (fun l h1 h2 => C53_real_plunge ha ha1 hE hL hr hsep hu hT hQ0 hh l (hD l h1 h2)) hY
    (fun l h1 h2 => ⟨?_, hD l h1 h2, ?_⟩) hY0 hW0
  · exact (C50_four_velocity ha ha1 hE hL hQ0.le hr hsep hu hT hQ0 hh l (hD l h1 h2)).1.ne'
  · exact (C50_radial_polar ha hE hL hQ0.le hr hsep hu hT l).2.2.2.1.ne'

end

section
variable {a E L Q r1 r2 uR uTheta : ℝ} {r3 r4 : ℂ} {q : Phases} {T : Traj}
  (hE : E ^ 2 < 1)
  (hr : plungingRadialRoots a E L Q = .ok (.cplx r1 r2 r3 r4))
  (hu : plungingMinoFrequencies a E L Q = .ok (uR, uTheta))
  (hT : plungingTrajectoryNat a E L Q q = .ok T)
include hE hr hu hT

/-- **C54 (plunges with two complex roots).** As for four real roots, on every interval of Mino time on which
the particle meets no horizon, no removable pole of the closed form (see C47) and not the ring `Σ = 0`. -/
theorem C54_complex_plunge (ha : a ≠ 0) (ha1 : a ^ 2 < 1) (hQ : 0 ≤ Q)
    (hax : L ≠ 0 ∨ Q < a ^ 2 * (1 - E ^ 2))
    (hAB : r1 + r2 ≠ 2 * r3.re)
    (hh : ∀ rh, Spec.Delta a rh = 0 → E * (rh ^ 2 + a ^ 2) ≠ a * L) {l₁ l₂ l₀ : ℝ} (h₀ : l₁ < l₀ ∧ l₀ < l₂)
    (hsing : ∀ l, l₁ < l → l < l₂ → ∀ rh, Spec.Delta a rh = 0 → T.r l ≠ rh ∧
      ((r2 - r3.re) ^ 2 + r4.im ^ 2) * (T.r l - r1) * (rh - r1)
        ≠ ((r1 - r3.re) ^ 2 + r4.im ^ 2) * (r2 - T.r l) * (r2 - rh))
    (hS : ∀ l, l₁ < l → l < l₂ → Spec.Sigma a (T.r l) (T.theta l) ≠ 0) (Y W : ℝ → Fin 4 → ℝ)
    (hY : ∀ l, l₁ < l → l < l₂ → Spec.GeodesicAt (kerrMetric a) Y W (Spec.Sigma a (Y l 1) (Y l 2)) l)
    (hY0 : Y l₀ = T.toCurve l₀)
    (hW0 : W l₀ = (fourVelocity a T (E, L, Q) uR uTheta q).toCurve l₀) :
    ∀ l, l₁ < l → l < l₂ →
      Y l = T.toCurve l ∧ W l = (fourVelocity a T (E, L, Q) uR uTheta q).toCurve l := by
  obtain ⟨-, zmx, -, -, -, -, hth⟩ := C32_polar_equation hE hr hu hT ha hQ hax
  exact mino_unique h₀ (fun l h1 h2 => C53_complex_plunge hE hr hu hT ha ha1 hQ hax hAB hh l (hsing l h1 h2)
    (hS l h1 h2)) hY (fun l h1 h2 => ⟨hS l h1 h2, fun h => (hsing l h1 h2 _ h).1 rfl, (hth l).2.1.ne'⟩) hY0 hW0

end

/-- Non-vacuity of `C54_initial_conditions`: the apoapsis `r = 26` of a retrograde inclined orbit. -/
example (rs : RootScalar) : ∃ pos vel o T U, mkOrbit rs (9 / 10) pos vel = .ok o ∧ pos.r = 26
    ∧ o.trajectoryNat rs = .ok T ∧ o.fourVelocity rs = .ok U
    ∧ ∃ mino : ℝ → ℝ, Spec.TheGeodesicFrom (kerrMetric (9 / 10)) pos.toVec vel.toVec
          (fun s => T.toCurve (mino s)) (fun s => U.toCurve (mino s)) := by
  have hB : Spec.BoundOrbit rs (9 / 10) 13 (1 / 2) (-1 / 2) :=
    C11_accepts_wide rs _ _ _ _ (by norm_num [abs_lt]) (by norm_num) (by norm_num)
      (by norm_num [abs_le]) (by norm_num)
  have hneg : (-1 / 2 : ℝ) < 0 := by norm_num
  obtain ⟨T, m, E, L, Q, r1, r2, r3, r4, hT, hm, hc, hr, hb, hE0, hE1, hL, -⟩ :=
    kerr_hyps ⟨1, π, π / 2, 2⟩ hB (by norm_num) (by norm_num) (by norm_num)
      (fun h => absurd h (by norm_num)) (.inl hneg)
  have ha : (0:ℝ) < 9 / 10 := by norm_num
  obtain ⟨-, -, hapo, -⟩ := C20_radial ha.le hT hm hc hr hb
  have hr26 : T.r 0 = 26 := by
    rw [hapo 0 0 (by simp)]; norm_num
  obtain ⟨m', zm, zp, D⟩ := stableData_of ha.le hT hc hr
  have HP := D.polar hb.energy hb.nonpolar
  have hth : T.theta 0 = π / 2 := by
    have h1 : T.theta 0 = (polarSolutionsCore (9 / 10) (E, L, Q) zm zp).pos
        (m'.upsilonTheta * 0 + π / 2) := by rw [D.hT]; rfl
    have h2 : amT (mT (9 / 10) zm zp) (π / 2) = π := by
      have := am_int HP.mT_lt 1
      unfold amT
      rw [show 2 / π * ellipk (mT (9 / 10) zm zp) * (π / 2 + π / 2)
        = 2 * ((1 : ℤ) : ℝ) * ellipk (mT (9 / 10) zm zp) by
          have := Real.pi_ne_zero; field_simp; push_cast; ring, this]
      push_cast; ring
    rw [h1, mul_zero, zero_add, polar_pos_eq HP, h2, Real.sin_pi, mul_zero, Real.arccos_zero]
  have h6 : √(1 - (-1 / 2) ^ 2) = cos (π / 6) := by
    rw [Real.cos_pi_div_six, show (1 - (-1 / 2) ^ 2 : ℝ) = 3 / 2 ^ 2 by norm_num,
      Real.sqrt_div (by norm_num), Real.sqrt_sq (by norm_num)]
  have hpi := Real.two_le_pi
  have h7 : arccos (√(1 - (-1 / 2) ^ 2)) = π / 6 := by
    rw [h6, Real.arccos_cos (by positivity) (by linarith)]
  obtain ⟨n1, n2, n3, n4⟩ := C23_norm ha.le hT hm hc hr hb 0
  obtain ⟨b1, b2⟩ := D.r_bounds hb 0
  obtain ⟨d1, d2⟩ := D.roots12
  have e1 : r1 = 26 := by rw [d1]; norm_num
  have e2 : r2 = 26 / 3 := by rw [d2]; norm_num
  have hL0 : L < 0 := by
    rw [Real.sign_of_neg hneg] at hL; linarith
  have hne : E * ((1 + √(1 - (9 / 10 : ℝ) ^ 2)) ^ 2 + (9 / 10) ^ 2) ≠ 9 / 10 * L := by
    have : 0 < E * ((1 + √(1 - (9 / 10 : ℝ) ^ 2)) ^ 2 + (9 / 10) ^ 2) := by positivity
    intro h
    rw [h] at this
    linarith
  obtain ⟨o, p, e, x, g1, g2, g3, g4, g5, g6, g7, g8⟩ := C54_initial_conditions rs none none ha (by norm_num) n4 n1
    (by change 0 < T.theta 0; rw [hth]; positivity) (by change T.theta 0 < π; rw [hth]; linarith)
    hE0 hE1 hb.nonpolar hb.roots hb.r43 hb.r32
    hb.r21 (by linarith [hb.horizon, hb.r32]) hne b1 b2 (fun x _ h => absurd h (by rw [e1, e2]; norm_num))
  obtain ⟨E', L', Q', p', e', x', m2, f1, f2, f3, f4, f5, f6, f7, -⟩ := mkOrbit_stable g1 g2
  obtain ⟨E2, L2, Q2, k1, k2⟩ := C09_roundtrip rs (9 / 10) 13 (1 / 2) (-1 / 2) hB ha (by norm_num) (by norm_num)
    (fun h => absurd h (by norm_num))
  have t1 := Except.ok.inj (k1.symm.trans hc)
  have t2 := Except.ok.inj (f1.symm.trans n4)
  simp only [Prod.mk.injEq] at t1 t2
  obtain ⟨rfl, rfl, rfl⟩ := t1
  obtain ⟨rfl, rfl, rfl⟩ := t2
  have t3 := Except.ok.inj (f2.symm.trans k2)
  simp only [Prod.mk.injEq, true_and] at t3
  obtain ⟨rfl, rfl, rfl⟩ := t3
  rw [f6] at g4
  simp only [Prod.mk.injEq] at g4
  obtain ⟨rfl, rfl, rfl⟩ := g4
  obtain ⟨T', U', hT', hU', -, -, tau, mino, -, -, -, -, -, hG⟩ := g8
    (.inl (by change T.r 0 = r1; rw [hr26, e1]))
    (.inr (by change _ ≤ |T.r 0 - r2|; rw [hr26, e2]; norm_num [abs_of_pos]))
    (.inr (by change _ ≤ |T.theta 0 - _|; rw [hth, h7, abs_of_pos (by linarith)]; norm_num; linarith))
    (.inr (by change _ ≤ |T.theta 0 - _|; rw [hth, h7, abs_of_neg (by linarith)]; norm_num; linarith))
  exact ⟨_, _, o, T', U', g1, hr26, hT', hU', mino, hG⟩

/-- Non-vacuity of `C54_real_plunge` (and of C53): around its outer turning point the plunge of C50 is the unique
geodesic with its initial data. -/
example (q : Phases) : ∃ T uR uT, plungingTrajectoryNat (12 / 13) exE (12 / 13 * exE) (8294400 / 679439) q = .ok T
    ∧ ∃ l₁ l₀ l₂, l₁ < l₀ ∧ l₀ < l₂ ∧ T.r l₀ = 2880 / 1369 ∧ ∀ Y W : ℝ → Fin 4 → ℝ,
      (∀ l, l₁ < l → l < l₂ →
        Spec.GeodesicAt (kerrMetric (12 / 13)) Y W (Spec.Sigma (12 / 13) (Y l 1) (Y l 2)) l) →
      Y l₀ = T.toCurve l₀ →
      W l₀ = (fourVelocity (12 / 13) T (exE, 12 / 13 * exE, 8294400 / 679439) uR uT q).toCurve l₀ →
      ∀ l, l₁ < l → l < l₂ → Y l = T.toCurve l := by
  have hE : exE ^ 2 < 1 := by rw [exE_sq]; norm_num
  have hE0 := exE_pos
  have hL : (12 / 13 * exE : ℝ) ≠ 0 := by positivity
  obtain ⟨⟨uR, uT, hu⟩, T, hT⟩ := C50_returns (by norm_num) hE hL exPlungeLabels q
  have hh : ∀ rh, Spec.Delta (12 / 13) rh = 0 → exE * (rh ^ 2 + (12 / 13) ^ 2) ≠ 12 / 13 * (12 / 13 * exE) := by
    intro rh hrh h
    have h1 : exE * rh ^ 2 = 0 := by linarith
    have h2 : rh = 0 := by
      rcases mul_eq_zero.mp h1 with h | h
      · exact absurd h hE0.ne'
      · exact pow_eq_zero_iff two_ne_zero |>.mp h
    rw [h2] at hrh
    unfold Spec.Delta at hrh
    norm_num at hrh
  obtain ⟨hU, -, -, -, hapo⟩ := C50_range (by norm_num) hE hL (by norm_num) exPlungeLabels (.inr (by norm_num)) hu hT
  have h0 : T.r ((π - q.qr) / uR) = 2880 / 1369 := hapo _ (by field_simp; ring)
  have hc : ContinuousAt T.r ((π - q.qr) / uR) :=
    (C50_radial_polar (by norm_num) hE hL (by norm_num) exPlungeLabels (.inr (by norm_num)) hu hT _).2.1.continuousAt
  have hD : ∀ᶠ l in 𝓝 ((π - q.qr) / uR), Spec.Delta (12 / 13) (T.r l) ≠ 0 := by
    refine ContinuousAt.eventually_ne (by unfold Spec.Delta; fun_prop) ?_
    rw [h0]; norm_num [Spec.Delta]
  obtain ⟨l₁, l₂, hl, hsub⟩ := mem_nhds_iff_exists_Ioo_subset.mp hD
  refine ⟨T, uR, uT, hT, l₁, _, l₂, hl.1, hl.2, h0, fun Y W hY hY0 hW0 l k1 k2 => ?_⟩
  exact (C54_real_plunge (by norm_num) (by norm_num) hE hL exPlungeLabels (.inr (by norm_num)) hu hT (by norm_num)
    hh hl (fun l k1 k2 => hsub ⟨k1, k2⟩) Y W hY hY0 hW0 l k1 k2).1

/-- Non-vacuity of `C54_complex_plunge` (and of C53): the plunge of C31 around its outer turning point. -/
example (q : Phases) : ∃ T uR uT,
    plungingTrajectoryNat (4 / 5) (√(66825 / 91777)) (4 / 5 * √(66825 / 91777)) (98 / 1873) q = .ok T
    ∧ ∃ l₁ l₀ l₂, l₁ < l₀ ∧ l₀ < l₂ ∧ T.r l₀ = 7 ∧ ∀ Y W : ℝ → Fin 4 → ℝ,
      (∀ l, l₁ < l → l < l₂ →
        Spec.GeodesicAt (kerrMetric (4 / 5)) Y W (Spec.Sigma (4 / 5) (Y l 1) (Y l 2)) l) →
      Y l₀ = T.toCurve l₀ →
      W l₀ = (fourVelocity (4 / 5) T (√(66825 / 91777), 4 / 5 * √(66825 / 91777), 98 / 1873) uR uT q).toCurve l₀ →
      ∀ l, l₁ < l → l < l₂ → Y l = T.toCurve l := by
  obtain ⟨r3, r4, hr, h3⟩ := exPlunge_roots
  have hE : √(66825 / 91777) ^ 2 < (1 : ℝ) := by rw [exPlungeE]; norm_num
  have hE0 : 0 < √(66825 / 91777 : ℝ) := Real.sqrt_pos.mpr (by norm_num)
  obtain ⟨⟨T, hT⟩, ⟨uR, uT⟩, hu⟩ := C31_returns _ _ _ _ _ _ _ _ q hr
  obtain ⟨hU, -, -, hp1⟩ := C31_period hE hr hu hT
  have h7 : T.r ((π - q.qr) / uR) = 7 := hp1 _ (by field_simp; ring)
  have hc : ContinuousAt T.r ((π - q.qr) / uR) := (C31_radial_equation hE hr hu hT _).2.2.2.continuousAt
  obtain ⟨-, zmx, -, -, -, -, hth⟩ := C32_polar_equation hE hr hu hT (by norm_num) (by norm_num)
    (Or.inl (by positivity))
  have hcth : ContinuousAt T.theta ((π - q.qr) / uR) := (hth _).2.2.2.continuousAt
  have hS : ∀ᶠ l in 𝓝 ((π - q.qr) / uR), Spec.Sigma (4 / 5) (T.r l) (T.theta l) ≠ 0 := by
    refine ContinuousAt.eventually_ne (by unfold Spec.Sigma; fun_prop) ?_
    unfold Spec.Sigma; rw [h7]; positivity
  have hr3 : 0 < ((7:ℝ) - r3.re) ^ 2 + r4.im ^ 2 := by
    rw [h3]; positivity
  have hpole : ∀ rh : ℝ, rh ≠ 7 → rh ≠ 7 / 20 → ∀ᶠ l in 𝓝 ((π - q.qr) / uR), T.r l ≠ rh ∧
      ((7 - r3.re) ^ 2 + r4.im ^ 2) * (T.r l - 7 / 20) * (rh - 7 / 20)
        ≠ ((7 / 20 - r3.re) ^ 2 + r4.im ^ 2) * (7 - T.r l) * (7 - rh) := by
    intro rh g1 g2
    refine (hc.eventually_ne (by rw [h7]; exact g1.symm)).and ?_
    have : ContinuousAt (fun l => ((7 - r3.re) ^ 2 + r4.im ^ 2) * (T.r l - 7 / 20) * (rh - 7 / 20)
        - ((7 / 20 - r3.re) ^ 2 + r4.im ^ 2) * (7 - T.r l) * (7 - rh)) ((π - q.qr) / uR) := by fun_prop
    have h := this.eventually_ne (show _ ≠ (0:ℝ) by
      rw [h7, sub_self, mul_zero, zero_mul, sub_zero]
      exact mul_ne_zero (by positivity) (sub_ne_zero.mpr g2))
    filter_upwards [h] with l hl heq
    exact hl (by rw [heq]; ring)
  obtain ⟨l₁, l₂, hl, hsub⟩ := mem_nhds_iff_exists_Ioo_subset.mp
    (hS.and ((hpole (2 / 5) (by norm_num) (by norm_num)).and (hpole (8 / 5) (by norm_num) (by norm_num))))
  refine ⟨T, uR, uT, hT, l₁, _, l₂, hl.1, hl.2, h7, fun Y W hY hY0 hW0 l k1 k2 => ?_⟩
  refine (C54_complex_plunge hE hr hu hT (by norm_num) (by norm_num) (by norm_num) (Or.inl (by positivity))
    (by rw [h3]; norm_num) ?_ hl ?_ (fun l k1 k2 => (hsub ⟨k1, k2⟩).1) Y W hY hY0 hW0 l k1 k2).1
  · intro rh hrh h
    have h5 : rh = 0 := by
      have : √(66825 / 91777) * rh ^ 2 = 0 := by linarith
      rcases mul_eq_zero.mp this with h | h
      · exact absurd h hE0.ne'
      · exact pow_eq_zero_iff (two_ne_zero) |>.mp h
    rw [h5] at hrh
    norm_num [Spec.Delta] at hrh
  · intro l k1 k2 rh hrh
    have h6 : (rh - 2 / 5) * (rh - 8 / 5) = 0 := by
      unfold Spec.Delta at hrh
      linear_combination hrh
    rcases mul_eq_zero.mp h6 with h | h
    · obtain rfl : rh = 2 / 5 := by linarith
      exact (hsub ⟨k1, k2⟩).2.1
    · obtain rfl : rh = 8 / 5 := by linarith
      exact (hsub ⟨k1, k2⟩).2.2

end KGP
