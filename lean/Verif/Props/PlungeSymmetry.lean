import Verif.Lemmas.PhaseTurns
import Verif.Props.RealPlunge
import Verif.Props.Symmetry

/-!
# C52 — symmetries of plunging trajectories

The phases `q_r0`, `q_theta0` are angles; Kerr is stationary, axisymmetric, symmetric under reflection in the
equatorial plane and under reversal of `t` and `φ`.  Plunging trajectories inherit all this, for all Mino times, also beyond
the horizons.
-/

namespace KGP

open Classical Real

/-- The common shape of the trajectories of both kinds of plunges: `s` is the offset of the polar phase, `g` and `w`
are the linear rates (zero for complex roots), `inf` says that the time coordinate is not a number. -/
noncomputable def plungeShape (R P : PhaseSols) (uR uT s g w : ℝ) (inf : Prop) (q : Phases) : Traj :=
  { t := if inf then pyInfTimes else fun l => q.qt + g * l + (R.dt (uR * l + q.qr) - R.dt q.qr)
      + (P.dt (uT * l + (q.qtheta + s)) - P.dt (q.qtheta + s))
    r := fun l => R.pos (uR * l + q.qr)
    theta := fun l => P.pos (uT * l + (q.qtheta + s))
    phi := fun l => q.qphi + w * l + (R.dphi (uR * l + q.qr) - R.dphi q.qr)
      + (P.dphi (uT * l + (q.qtheta + s)) - P.dphi (q.qtheta + s)) }

/-- The two real roots of a plunge with complex roots differ: both horizons lie between them. -/
lemma cplx_outer_lt {a E L Q r1 r2 : ℝ} {r3 r4 : ℂ} (ha : a ^ 2 < 1) (hE : E ^ 2 < 1)
    (hpr : plungingRadialRoots a E L Q = .ok (.cplx r1 r2 r3 r4)) : r1 < r2 := by
  obtain ⟨h12, hv, h4, hR⟩ := C30_complex a E L Q r1 r2 r3 r4 hE.ne hpr
  have hv4 : r4.im ≠ 0 := by rw [h4, Complex.conj_im]; linarith
  have hs : 0 < √(1 - a ^ 2) := Real.sqrt_pos.mpr (by linarith)
  have key : ∀ r, Spec.Delta a r = 0 → 0 ≤ (r2 - r) * (r - r1) := by
    intro r hD
    have h0 := R_horizon_nonneg (E := E) (L := L) (Q := Q) hD
    rw [hR] at h0
    have hp : 0 < (1 - E ^ 2) * ((r - r3.re) ^ 2 + r4.im ^ 2) := by
      have := sq_nonneg (r - r3.re)
      have := pow_pos (abs_pos.mpr hv4) 2
      rw [sq_abs] at this
      exact mul_pos (by linarith) (by linarith)
    by_contra h
    push Not at h
    have := mul_neg_of_pos_of_neg hp h
    linarith
  have k1 := key _ (Delta_rPlus ha.le)
  have k2 := key _ (Delta_rMinus ha.le)
  rcases h12.lt_or_eq with h | h
  · exact h
  · subst h
    have e1 : (1 + √(1 - a ^ 2) - r1) ^ 2 ≤ 0 := by linarith [k1]
    have e2 : (1 - √(1 - a ^ 2) - r1) ^ 2 ≤ 0 := by linarith [k2]
    have e3 := pow_eq_zero_iff (two_ne_zero) |>.mp (le_antisymm e1 (sq_nonneg _))
    have e4 := pow_eq_zero_iff (two_ne_zero) |>.mp (le_antisymm e2 (sq_nonneg _))
    linarith

lemma plunge_shape {a E L Q : ℝ} (ha : a ≠ 0) (hE : E ^ 2 < 1) (hQ : 0 ≤ Q)
    (hsep : ∀ r1 r2 r3 r4, plungingRadialRoots a E L Q = .ok (.real r1 r2 r3 r4) → L ≠ 0 ∧ (r3 < r2 ∨ r1 < r4))
    (hax : L ≠ 0 ∨ Q < a ^ 2 * (1 - E ^ 2)) {pr : PlungeRoots} (hpr : plungingRadialRoots a E L Q = .ok pr) :
    ∃ R P uR uT s g w inf, plungingMinoFrequencies a E L Q = .ok (uR, uT)
      ∧ (∀ q, plungingTrajectoryNat a E L Q q = .ok (plungeShape R P uR uT s g w inf q))
      ∧ (inf → Q = 0 ∧ ∃ r1 r2 r3 r4, pr = .real r1 r2 r3 r4)
      ∧ (∃ c d, Turning R (2 * π) c d) ∧ (∃ c d, Turning P (2 * π) c d)
      ∧ (a ^ 2 < 1 → (∀ r1 r2 r3 r4, pr = .cplx r1 r2 r3 r4 → r1 + r2 ≠ 2 * r3.re) → Mirrored R 0) ∧ Mirrored P (2 * s)
      ∧ (∀ q, P.pos (q + π) = π - P.pos q) ∧ (∃ c, ∀ q, P.dt (q + π) = P.dt q + c)
      ∧ ∃ c, ∀ q, P.dphi (q + π) = P.dphi q + c := by
  cases pr with
  | cplx r1 r2 r3 r4 =>
    have H := cplxConfig_of hE hpr
    have HP : PlungePolar a E L Q := ⟨ha, hE, hQ, hax⟩
    refine ⟨plungingRadialSolutionsCore a E L r1 r2 r3.re r4.im (plungeUpsilonRComplex E r1 r2 r3.re r4.im),
      plungingPolarSolutionsCore a E L Q (plungeUpsilonThetaComplex a E L Q),
      plungeUpsilonRComplex E r1 r2 r3.re r4.im, plungeUpsilonThetaComplex a E L Q,
      π / 2, 0, 0, False, (cplx_calls ⟨0, 0, 0, 0⟩ hpr).1, fun q => ?_, fun h => h.elim,
      cplx_turning H a E L _, plungePolar_turning HP, fun ha2 hAB => cplx_mirrored H a E L _ ?_, ?_, fun q => (plungePolar_half HP q).1,
      ⟨_, fun q => (plungePolar_half HP q).2.1⟩, ⟨_, fun q => (plungePolar_half HP q).2.2⟩⟩
    · rw [(cplx_calls q hpr).2]
      simp only [plungeShape, assemblePlunge, if_false, Except.ok.injEq, Traj.mk.injEq]
      refine ⟨?_, trivial, trivial, ?_⟩ <;> funext l <;> ring
    · have hAB := hAB r1 r2 r3 r4 rfl
      intro h
      have h2 : plungeA r2 r3.re r4.im ^ 2 = plungeB r1 r3.re r4.im ^ 2 := by rw [h]
      rw [plungeA_sq, plungeB_sq] at h2
      have h3 : (r2 - r1) * (r1 + r2 - 2 * r3.re) = 0 := by linear_combination h2
      rcases mul_eq_zero.mp h3 with h4 | h4
      · exact (cplx_outer_lt ha2 hE hpr).ne' (by linarith)
      · exact hAB (by linarith)
    · rw [show 2 * (π / 2) = π by ring]
      exact plungePolar_mirrored HP
  | real r1 r2 r3 r4 =>
    obtain ⟨hL, hsep⟩ := hsep _ _ _ _ hpr
    have HR := realConfig_of hE hpr hsep
    have hb : 0 < 1 - E ^ 2 := by linarith
    obtain ⟨zm, zp, hz, hz1, hzp, hf⟩ := polarRootsNumpy_real (Q := Q) ha hb hL
    obtain ⟨⟨uR, uT, hu⟩, ⟨T, hT⟩⟩ := C50_returns ha hE hL hpr ⟨0, 0, 0, 0⟩
    obtain ⟨zm', zp', HP, hf', hUR, hUT, -⟩ := real_calls ha hE hL hQ hpr hu hT
    have hzm : 0 ≤ zm := by
      have h0 := hf 0
      rw [show Spec.Zpol a E L Q 0 = Q by rw [Spec.Zpol]; ring] at h0
      by_contra h
      push Not at h
      have hpos : 0 < a ^ 2 * (1 - E ^ 2) := by positivity
      have h1 : (0 - zm) * (0 - zp) < 0 := mul_neg_of_pos_of_neg (by linarith) (by linarith)
      have := mul_neg_of_pos_of_neg hpos h1
      linarith
    have HP := polarConfig_of hb hL hzm hz1 hf
    refine ⟨radialSolutions a (E, L, Q) (r1, r2, r3, r4), polarSolutionsCore a (E, L, Q) zm zp,
      (minoFrequenciesFromConstants a (E, L, Q) (r1, r2, r3, r4) (zm, zp)).upsilonR,
      (minoFrequenciesFromConstants a (E, L, Q) (r1, r2, r3, r4) (zm, zp)).upsilonTheta, 0,
      (minoFrequenciesFromConstants a (E, L, Q) (r1, r2, r3, r4) (zm, zp)).gamma,
      (minoFrequenciesFromConstants a (E, L, Q) (r1, r2, r3, r4) (zm, zp)).upsilonPhi, gammaIsInf (r1, r2, r3, r4),
      ?_, fun q => ?_, fun h => ⟨?_, _, _, _, _, rfl⟩, ⟨0, 0, radialSols_turning HR _ _⟩, ⟨0, 0, polarSols_turning HP⟩,
      fun _ _ => radialSols_mirrored HR _ _, ?_, fun q => (polar_half_turn HP q).1,
      ⟨0, fun q => by rw [(polar_half_turn HP q).2.1, add_zero]⟩, ⟨0, fun q => by rw [(polar_half_turn HP q).2.2, add_zero]⟩⟩
    · unfold plungingMinoFrequencies
      simp only [hpr, bind_ok, plungingMinoFrequenciesOf, hz]
      rfl
    · unfold plungingTrajectoryNat
      simp only [hpr, bind_ok, realPlungeTrajectoryNat, hz, polarSolutions]
      by_cases hg : gammaIsInf (r1, r2, r3, r4)
      · simp only [hg, if_true, plungeShape, assembleTrajectory, pure, Except.pure, Except.ok.injEq, Traj.mk.injEq, add_zero]
        refine ⟨trivial, trivial, trivial, ?_⟩
        funext l; ring
      · simp only [hg, if_false, plungeShape, assembleTrajectory, pure, Except.pure, Except.ok.injEq, Traj.mk.injEq, add_zero]
        refine ⟨?_, trivial, trivial, ?_⟩ <;> funext l <;> ring
    · by_contra hQ0
      exact finite_gamma ha hE.ne hQ0 hpr h
    · rw [mul_zero]; exact polarSols_mirrored HP

/-- **C52 (phases are angles).** Adding whole turns to the radial and polar phases of a stable orbit changes nothing. -/
theorem C52_turns (rs : RootScalar) (a p e x : ℝ) (q : Phases) (h : Spec.BoundOrbit rs a p e x) (ha : 0 ≤ a) (he1 : e ≠ 1)
    (hx0 : x ≠ 0) (hp : 0 < x → p ≤ 4 → Spec.DivisorsNonzero a p e x)
    (hne : x < 0 ∨ ∀ E L Q, constantsOfMotion rs a p e x = .ok (E, L, Q) → E * ((1 + √(1 - a ^ 2)) ^ 2 + a ^ 2) ≠ a * L)
    (k j : ℤ) :
    stableTrajectoryNat rs a p e x ⟨q.qt, q.qr + k * (2 * π), q.qtheta + j * (2 * π), q.qphi⟩
      = stableTrajectoryNat rs a p e x q := by
  obtain ⟨T, m, E, L, Q, r1, r2, r3, r4, hT, hm, hc, hr, hb, -⟩ := orbit_hyps q h ha he1 hx0 hp hne
  obtain ⟨m1, zm, zp, D⟩ := stableData_of ha hT hc hr
  obtain rfl : m1 = m := D.mino_eq hm
  have hR := radialSols_turning (BoundGeodesic.config hb) a (E, L, Q)
  have hP := polarSols_turning (D.polar hb.energy hb.nonpolar)
  have hzz := D.hzz
  rw [stableTrajectoryNat_of hm hc, stableTrajectoryNat_of hm hc, D.hrr, hzz, Except.ok.injEq]
  have a1 := fun y => (hR.turns k y).1
  have a2 := fun y => (hR.turns k y).2.1
  have a3 := fun y => (hR.turns k y).2.2
  have b1 := fun y => (hP.turns j y).1
  have b2 := fun y => (hP.turns j y).2.1
  have b3 := fun y => (hP.turns j y).2.2
  generalize radialSolutions a (E, L, Q) (r1, r2, r3, r4) = R at a1 a2 a3 ⊢
  simp only [] at b1 b2 b3 ⊢
  generalize polarSolutionsCore a (E, L, Q) zm zp = P at b1 b2 b3 ⊢
  generalize (k : ℝ) * (2 * π) = kk at *
  generalize (j : ℝ) * (2 * π) = jj at *
  unfold assembleTrajectory
  simp only [← add_assoc, a1, a2, a3, b1, b2, b3, mul_zero, add_zero]

section
variable {a E L Q : ℝ} (q : Phases) (ha : a ≠ 0) (hE : E ^ 2 < 1) (hQ : 0 ≤ Q)
  (hsep : ∀ r1 r2 r3 r4, plungingRadialRoots a E L Q = .ok (.real r1 r2 r3 r4) → L ≠ 0 ∧ (r3 < r2 ∨ r1 < r4))
  (hax : L ≠ 0 ∨ Q < a ^ 2 * (1 - E ^ 2))
include ha hE hQ hsep hax

/-- **C52 (plunges: phases are angles).** Adding whole turns to the radial and polar phases changes nothing. -/
theorem C52_plunge_turns (k j : ℤ) :
    plungingTrajectoryNat a E L Q ⟨q.qt, q.qr + k * (2 * π), q.qtheta + j * (2 * π), q.qphi⟩
      = plungingTrajectoryNat a E L Q q := by
  cases hpr : plungingRadialRoots a E L Q with
  | error e => simp only [plungingTrajectoryNat, hpr, bind, Except.bind]
  | ok pr =>
    obtain ⟨R, P, uR, uT, s, g, w, inf, -, hT, -, ⟨c, d, hR⟩, ⟨c', d', hP⟩, -⟩ := plunge_shape ha hE hQ hsep hax hpr
    rw [hT, hT, Except.ok.injEq]
    have e1 : ∀ y, y + (q.qr + k * (2 * π)) = (y + q.qr) + k * (2 * π) := fun y => by ring
    have e2 : ∀ y, y + (q.qtheta + s + j * (2 * π)) = (y + (q.qtheta + s)) + j * (2 * π) := fun y => by ring
    have e3 : q.qtheta + j * (2 * π) + s = (q.qtheta + s) + j * (2 * π) := by ring
    have a1 := fun y => (hR.turns k y).1
    have a2 := fun y => (hR.turns k y).2.1
    have a3 := fun y => (hR.turns k y).2.2
    have b1 := fun y => (hP.turns j y).1
    have b2 := fun y => (hP.turns j y).2.1
    have b3 := fun y => (hP.turns j y).2.2
    generalize (k : ℝ) * (2 * π) = kk at *
    generalize (j : ℝ) * (2 * π) = jj at *
    unfold plungeShape
    simp only [e1, e2, e3, a1, a2, a3, b1, b2, b3, add_sub_add_right_eq_sub]

/-- **C52 (plunges: shifts).** The phases of `t` and `φ` only shift `t` and `φ` (for `t`: where it is a number). -/
theorem C52_plunge_shift (T : Traj) (hT : plungingTrajectoryNat a E L Q q = .ok T) (dt dphi : ℝ) :
    ∃ T', plungingTrajectoryNat a E L Q ⟨q.qt + dt, q.qr, q.qtheta, q.qphi + dphi⟩ = .ok T'
      ∧ ∀ l, T'.r l = T.r l ∧ T'.theta l = T.theta l ∧ T'.phi l = T.phi l + dphi
        ∧ (Q ≠ 0 → T'.t l = T.t l + dt) := by
  cases hpr : plungingRadialRoots a E L Q with
  | error e => unfold plungingTrajectoryNat at hT; rw [hpr] at hT; exact absurd hT (by simp [bind, Except.bind])
  | ok pr =>
    obtain ⟨R, P, uR, uT, s, g, w, inf, -, hS, hinf, -⟩ := plunge_shape ha hE hQ hsep hax hpr
    rw [hS, Except.ok.injEq] at hT
    refine ⟨_, hS _, fun l => ?_⟩
    rw [← hT]
    refine ⟨rfl, rfl, ?_, fun h => ?_⟩
    · simp only [plungeShape]; ring
    · have : ¬ inf := fun hi => h (hinf hi).1
      simp only [plungeShape, this, if_false]; ring

/-- **C52 (plunges: reflection).** Half a turn of the polar phase reflects the plunge in the equatorial plane. -/
theorem C52_plunge_reflection (T : Traj) (hT : plungingTrajectoryNat a E L Q q = .ok T) :
    ∃ T', plungingTrajectoryNat a E L Q ⟨q.qt, q.qr, q.qtheta + π, q.qphi⟩ = .ok T'
      ∧ ∀ l, T'.t l = T.t l ∧ T'.r l = T.r l ∧ T'.theta l = π - T.theta l ∧ T'.phi l = T.phi l := by
  cases hpr : plungingRadialRoots a E L Q with
  | error e => unfold plungingTrajectoryNat at hT; rw [hpr] at hT; exact absurd hT (by simp [bind, Except.bind])
  | ok pr =>
    obtain ⟨R, P, uR, uT, s, g, w, inf, -, hS, -, -, -, -, -, h1, ⟨c2, h2⟩, ⟨c3, h3⟩⟩ := plunge_shape ha hE hQ hsep hax hpr
    rw [hS, Except.ok.injEq] at hT
    have e2 : ∀ y, y + (q.qtheta + s + π) = (y + (q.qtheta + s)) + π := fun y => by ring
    have e3 : q.qtheta + π + s = (q.qtheta + s) + π := by ring
    refine ⟨_, hS _, fun l => ?_⟩
    rw [← hT]
    simp only [plungeShape, e2, e3, h1, h2, h3, add_sub_add_right_eq_sub, and_self]

/-- **C52 (plunges: reversal).** Negating all phases reverses the motion: `t` and `φ` change sign, `r` and `θ` do not.
(`r1 + r2 ≠ 2 Re r3` is where the code for complex roots divides by zero.) -/
theorem C52_plunge_reversal (ha2 : a ^ 2 < 1)
    (hAB : ∀ r1 r2 r3 r4, plungingRadialRoots a E L Q = .ok (.cplx r1 r2 r3 r4) → r1 + r2 ≠ 2 * r3.re)
    (T : Traj) (hT : plungingTrajectoryNat a E L Q q = .ok T) :
    ∃ T', plungingTrajectoryNat a E L Q ⟨-q.qt, -q.qr, -q.qtheta, -q.qphi⟩ = .ok T'
      ∧ ∀ l, T'.r (-l) = T.r l ∧ T'.theta (-l) = T.theta l ∧ T'.phi (-l) = -T.phi l
        ∧ (Q ≠ 0 → T'.t (-l) = -T.t l) := by
  cases hpr : plungingRadialRoots a E L Q with
  | error e => unfold plungingTrajectoryNat at hT; rw [hpr] at hT; exact absurd hT (by simp [bind, Except.bind])
  | ok pr =>
    obtain ⟨R, P, uR, uT, s, g, w, inf, -, hS, hinf, -, -, hR, hP, -⟩ := plunge_shape ha hE hQ hsep hax hpr
    have hR := hR ha2 (fun r1 r2 r3 r4 h => hAB r1 r2 r3 r4 (by rw [hpr, h]))
    rw [hS, Except.ok.injEq] at hT
    have e1 : ∀ l, uR * -l + -q.qr = 0 - (uR * l + q.qr) := fun l => by ring
    have e2 : ∀ l, uT * -l + (-q.qtheta + s) = 2 * s - (uT * l + (q.qtheta + s)) := fun l => by ring
    have e3 : -q.qr = 0 - q.qr := by ring
    have e4 : -q.qtheta + s = 2 * s - (q.qtheta + s) := by ring
    refine ⟨_, hS _, fun l => ?_⟩
    rw [← hT]
    refine ⟨?_, ?_, ?_, fun h => ?_⟩
    · simp only [plungeShape, e1, hR.pos]
    · simp only [plungeShape, e2, hP.pos]
    · simp only [plungeShape, e1, e2]
      rw [e3, e4, hR.dphi, hP.dphi]; ring
    · have : ¬ inf := fun hi => h (hinf hi).1
      simp only [plungeShape, this, if_false, e1, e2]
      rw [e3, e4, hR.dt, hP.dt]; ring

end

/-- All hypotheses of the four theorems hold for a plunge with complex roots … -/
example (q : Phases) : ∃ T T', plungingTrajectoryNat (4 / 5) (√(66825 / 91777)) (4 / 5 * √(66825 / 91777)) (98 / 1873) q = .ok T
    ∧ plungingTrajectoryNat (4 / 5) (√(66825 / 91777)) (4 / 5 * √(66825 / 91777)) (98 / 1873)
      ⟨-q.qt, -q.qr, -q.qtheta, -q.qphi⟩ = .ok T' ∧ ∀ l, T'.t (-l) = -T.t l := by
  obtain ⟨r3, r4, hr, h3⟩ := exPlunge_roots
  have hE : √(66825 / 91777) ^ 2 < (1 : ℝ) := by rw [Real.sq_sqrt (by norm_num)]; norm_num
  have hL : (4 / 5 * √(66825 / 91777) : ℝ) ≠ 0 := by positivity
  obtain ⟨T', hT', h⟩ := C52_plunge_reversal q (by norm_num) hE (by norm_num)
    (fun s1 s2 s3 s4 h => by rw [hr] at h; simp at h) (.inl hL) (by norm_num)
    (fun s1 s2 s3 s4 h => by
      rw [hr, Except.ok.injEq, PlungeRoots.cplx.injEq] at h
      obtain ⟨rfl, rfl, rfl, -⟩ := h
      rw [h3]; norm_num) _ (cplx_calls q hr).2
  exact ⟨_, T', (cplx_calls q hr).2, hT', fun l => (h l).2.2.2 (by norm_num)⟩

/-- … and for a plunge with four real roots. -/
example (q : Phases) : ∃ T T', plungingTrajectoryNat (12 / 13) exE (12 / 13 * exE) (8294400 / 679439) q = .ok T
    ∧ plungingTrajectoryNat (12 / 13) exE (12 / 13 * exE) (8294400 / 679439)
      ⟨-q.qt, -q.qr, -q.qtheta, -q.qphi⟩ = .ok T' ∧ ∀ l, T'.t (-l) = -T.t l := by
  have hE : exE ^ 2 < 1 := by rw [exE_sq]; norm_num
  have hL : 12 / 13 * exE ≠ 0 := by
    have : exE ≠ 0 := fun h => by have := exE_sq; rw [h] at this; norm_num at this
    positivity
  obtain ⟨-, T, hT⟩ := C50_returns (by norm_num) hE hL exPlungeLabels q
  obtain ⟨T', hT', h⟩ := C52_plunge_reversal q (by norm_num) hE (by norm_num)
    (fun s1 s2 s3 s4 h => by
      rw [exPlungeLabels, Except.ok.injEq, PlungeRoots.real.injEq] at h
      obtain ⟨rfl, rfl, rfl, rfl⟩ := h
      exact ⟨hL, .inr (by norm_num)⟩) (.inl hL) (by norm_num)
    (fun s1 s2 s3 s4 h => by rw [exPlungeLabels] at h; simp at h) _ hT
  exact ⟨T, T', hT, hT', fun l => (h l).2.2.2 (by norm_num)⟩

end KGP
