import Verif.Props.RootsStable
import Verif.Props.Roots

/-!
# C18, C19, C25, C33, C41: assembling trajectories and orbit objects
-/

namespace KGP

open Classical Real

lemma bind_eq_ok {α β : Type} {x : Py α} {f : α → Py β} {v : β} :
    (x >>= f) = .ok v ↔ ∃ w, x = .ok w ∧ f w = .ok v := by
  cases x with
  | error e => simp [bind_error]
  | ok u => simp [bind_ok]

/-! ## C18 -/

lemma assembleTrajectory_zero (R P : PhaseSols) (m : MinoFreqs) (q : Phases) :
    (assembleTrajectory R P m q).t 0 = q.qt ∧ (assembleTrajectory R P m q).phi 0 = q.qphi := by
  simp only [assembleTrajectory, mul_zero, zero_add]
  constructor <;> ring

lemma assemblePlunge_zero (R P : PhaseSols) (uR uT : ℝ) (q : Phases) :
    (assemblePlunge R P uR uT q).t 0 = q.qt ∧ (assemblePlunge R P uR uT q).phi 0 = q.qphi := by
  simp only [assemblePlunge, mul_zero, zero_add]
  constructor <;> ring

/-- What a successful `stable_trajectory` call computed. -/
lemma stableTrajectoryNat_ok {rs : RootScalar} {a p e x : ℝ} {q : Phases} {T : Traj}
    (h : stableTrajectoryNat rs a p e x q = .ok T) :
    ∃ m cs zz, minoFrequencies rs a p e x = .ok m ∧ constantsOfMotion rs a p e x = .ok cs
      ∧ zz = stablePolarRootsCore a x cs
      ∧ T = assembleTrajectory (radialSolutions a cs (stableRadialRootsCore a p e cs))
          (polarSolutionsCore a cs zz.1 zz.2) m q := by
  unfold stableTrajectoryNat at h
  obtain ⟨m, hm, h⟩ := bind_eq_ok.mp h
  obtain ⟨cs, hcs, h⟩ := bind_eq_ok.mp h
  refine ⟨m, cs, _, hm, hcs, rfl, ?_⟩
  exact (Except.ok.inj h).symm

lemma stableTrajectoryNat_of {rs : RootScalar} {a p e x : ℝ} {m : MinoFreqs} {cs : Consts}
    (hm : minoFrequencies rs a p e x = .ok m) (hcs : constantsOfMotion rs a p e x = .ok cs)
    (q : Phases) :
    stableTrajectoryNat rs a p e x q = .ok
      (assembleTrajectory (radialSolutions a cs (stableRadialRootsCore a p e cs))
          (polarSolutionsCore a cs (stablePolarRootsCore a x cs).1 (stablePolarRootsCore a x cs).2)
          m q) := by
  unfold stableTrajectoryNat
  rw [hm, hcs]; rfl

/-- What a successful plunging trajectory call computed: either a complex-root or a real-root
assembly, whose ingredients do not depend on the initial phases. -/
lemma plungingTrajectoryNat_ok {a E L Q : ℝ} {q : Phases} {T : Traj}
    (h : plungingTrajectoryNat a E L Q q = .ok T) :
    ∃ uR uT, plungingMinoFrequencies a E L Q = .ok (uR, uT) ∧ ∃ R P,
      ((T = assemblePlunge R P uR uT q
          ∧ ∀ q', plungingTrajectoryNat a E L Q q' = .ok (assemblePlunge R P uR uT q')) ∨
       ∃ m : MinoFreqs, m.upsilonR = uR ∧ m.upsilonTheta = uT ∧ ∃ r1 r2 r3 r4,
          plungingRadialRoots a E L Q = .ok (.real r1 r2 r3 r4) ∧
          ((¬ gammaIsInf (r1, r2, r3, r4) ∧ T = assembleTrajectory R P m q
            ∧ ∀ q', plungingTrajectoryNat a E L Q q' = .ok (assembleTrajectory R P m q')) ∨
           (gammaIsInf (r1, r2, r3, r4) ∧ T = { assembleTrajectory R P m q with t := pyInfTimes }))) := by
  unfold plungingTrajectoryNat at h
  obtain ⟨pr, hpr, h⟩ := bind_eq_ok.mp h
  cases pr with
  | cplx r1 r2 r3 r4 =>
    simp only [complexPlungeTrajectoryNat] at h
    obtain ⟨⟨uR, uT⟩, hm, h⟩ := bind_eq_ok.mp h
    obtain ⟨R, hR, h⟩ := bind_eq_ok.mp h
    obtain ⟨P, hP, h⟩ := bind_eq_ok.mp h
    refine ⟨uR, uT, hm, R, P, .inl ⟨(Except.ok.inj h).symm, fun q' => ?_⟩⟩
    unfold plungingTrajectoryNat
    rw [hpr, bind_ok]
    simp only [complexPlungeTrajectoryNat, hm, hR, hP, bind_ok]
    rfl
  | real r1 r2 r3 r4 =>
    simp only [realPlungeTrajectoryNat] at h
    obtain ⟨⟨zm, zp⟩, hz, h⟩ := bind_eq_ok.mp h
    obtain ⟨P, hP, h⟩ := bind_eq_ok.mp h
    refine ⟨_, _, ?_, radialSolutions a (E, L, Q) (r1, r2, r3, r4), P,
      .inr ⟨minoFrequenciesFromConstants a (E, L, Q) (r1, r2, r3, r4) (zm, zp), rfl, rfl, r1, r2, r3, r4, hpr, ?_⟩⟩
    · unfold plungingMinoFrequencies
      rw [hpr, bind_ok]
      simp only [plungingMinoFrequenciesOf, hz, bind_ok]
      rfl
    · by_cases hg : gammaIsInf (r1, r2, r3, r4)
      · right
        have h2 := Except.ok.inj h
        rw [if_pos hg] at h2
        exact ⟨hg, h2.symm⟩
      · left
        have h2 := Except.ok.inj h
        rw [if_neg hg] at h2
        refine ⟨hg, h2.symm, fun q' => ?_⟩
        unfold plungingTrajectoryNat
        rw [hpr, bind_ok]
        simp only [realPlungeTrajectoryNat, hz, hP, bind_ok, if_neg hg]
        rfl

lemma not_gammaIsInf {r1 r2 r3 r4 : ℝ} (h : r2 ≠ 0) : ¬ gammaIsInf (r1, r2, r3, r4) := by
  intro hg
  simp only [gammaIsInf] at hg
  by_cases h0 : r1 + r2 = 0
  · rw [h0, div_zero] at hg; exact zero_ne_one hg
  · rw [div_eq_one_iff_eq h0] at hg
    exact h (by linarith)

/-- **C18.** Whenever `stable_trajectory` returns, for whatever parameters, phases and units, the
trajectory starts at time `q_t0` (converted to the requested units) and azimuth `q_phi0`. -/
theorem C18_stable (rs : RootScalar) (a p e x : ℝ) (q : Phases) (M : Option ℝ) (du tu : String)
    (T : TrajPy) (h : stableTrajectory rs a p e x q M du tu = .ok T) :
    T.t 0 = convTime tu M q.qt ∧ T.phi 0 = q.qphi := by
  unfold stableTrajectory at h
  obtain ⟨_, -, h⟩ := bind_eq_ok.mp h
  obtain ⟨T', hT, h⟩ := bind_eq_ok.mp h
  obtain ⟨m, cs, zz, -, -, -, rfl⟩ := stableTrajectoryNat_ok hT
  cases Except.ok.inj h
  have := assembleTrajectory_zero (radialSolutions a cs (stableRadialRootsCore a p e cs))
    (polarSolutionsCore a cs zz.1 zz.2) m q
  exact ⟨by simp only [Traj.withUnits, this.1], this.2⟩

/-- Except for equatorial orbits with four real radial roots, `Gamma` of a plunge is finite. -/
lemma finite_gamma {a E L Q r1 r2 r3 r4 : ℝ} (ha : a ≠ 0) (hE : E ^ 2 ≠ 1) (hQ : Q ≠ 0)
    (h : plungingRadialRoots a E L Q = .ok (.real r1 r2 r3 r4)) : ¬ gammaIsInf (r1, r2, r3, r4) := by
  refine not_gammaIsInf fun h0 => ?_
  have hR := (C30_real a E L Q r1 r2 r3 r4 hE h).1 0
  rw [h0] at hR
  unfold Spec.R Spec.Delta at hR
  have : a ^ 2 * Q = 0 := by linear_combination -hR
  rcases mul_eq_zero.mp this with h | h
  · exact ha (pow_eq_zero_iff (two_ne_zero) |>.mp h)
  · exact hQ h

/-- **C18.** The same for plunging trajectories, with real or complex roots.  Only for equatorial orbits
with four real radial roots is nothing claimed about the time (see `C18_equatorial_violation`). -/
theorem C18_plunging (a E L Q : ℝ) (q : Phases) (M : Option ℝ) (du tu : String)
    (T : TrajPy) (h : plungingTrajectory a E L Q q M du tu = .ok T) :
    T.phi 0 = q.qphi ∧ (a ≠ 0 → E ^ 2 ≠ 1 →
      (Q = 0 → ∀ r1 r2 r3 r4, plungingRadialRoots a E L Q ≠ .ok (.real r1 r2 r3 r4)) →
      T.t 0 = convTime tu M q.qt) := by
  unfold plungingTrajectory at h
  obtain ⟨_, -, h⟩ := bind_eq_ok.mp h
  obtain ⟨_, -, h⟩ := bind_eq_ok.mp h
  obtain ⟨T', hT, h⟩ := bind_eq_ok.mp h
  cases Except.ok.inj h
  obtain ⟨uR, uT, -, R, P, ⟨rfl, -⟩ | ⟨m, -, -, r1, r2, r3, r4, hr, ⟨-, rfl, -⟩ | ⟨hg, rfl⟩⟩⟩ :=
    plungingTrajectoryNat_ok hT
  · have := assemblePlunge_zero R P uR uT q
    exact ⟨this.2, fun _ _ _ => by simp only [Traj.withUnits, this.1]⟩
  · have := assembleTrajectory_zero R P m q
    exact ⟨this.2, fun _ _ _ => by simp only [Traj.withUnits, this.1]⟩
  · have := assembleTrajectory_zero R P m q
    refine ⟨this.2, fun ha hE hQ => ?_⟩
    exact absurd hg (finite_gamma ha hE (fun h0 => hQ h0 r1 r2 r3 r4 hr) hr)

/-- **C18 (objects).** For every orbit object and every choice of phases. -/
theorem C18_object (rs : RootScalar) (o : OrbitObj) (q : Phases) (T : Traj)
    (h : o.trajectoryNat rs (some q) = .ok T) : T.phi 0 = q.qphi ∧
      ((o.stable = false → o.a ≠ 0 ∧ o.consts.1 ^ 2 ≠ 1 ∧ (o.consts.2.2 = 0 → ∀ r1 r2 r3 r4,
        plungingRadialRoots o.a o.consts.1 o.consts.2.1 o.consts.2.2 ≠ .ok (.real r1 r2 r3 r4))) →
      T.t 0 = q.qt) := by
  unfold OrbitObj.trajectoryNat at h
  simp only [Option.getD_some] at h
  split_ifs at h with hs
  · obtain ⟨m, cs, zz, -, -, -, rfl⟩ := stableTrajectoryNat_ok h
    exact ⟨(assembleTrajectory_zero _ _ _ _).2, fun _ => (assembleTrajectory_zero _ _ _ _).1⟩
  · obtain ⟨uR, uT, -, R, P, ⟨rfl, -⟩ | ⟨m, -, -, r1, r2, r3, r4, hr, ⟨-, rfl, -⟩ | ⟨hg, rfl⟩⟩⟩ :=
      plungingTrajectoryNat_ok h
    · exact ⟨(assemblePlunge_zero R P uR uT q).2, fun _ => (assemblePlunge_zero R P uR uT q).1⟩
    · exact ⟨(assembleTrajectory_zero R P m q).2, fun _ => (assembleTrajectory_zero R P m q).1⟩
    · refine ⟨(assembleTrajectory_zero R P m q).2, fun h0 => ?_⟩
      obtain ⟨ha, hE, hQ⟩ := h0 (by simpa using hs)
      exact absurd hg (finite_gamma ha hE (fun h0 => hQ h0 r1 r2 r3 r4 hr) hr)

/-- **C18 (false for equatorial real-root plunges).** For an equatorial orbit (`Q = 0`) with four real
radial roots whose smallest one is the root `r = 0`, `_gamma_from_constants` mistakes the plunge for a
marginally bound orbit (`(r1 - r2)/(r1 + r2) = 1`) and returns `inf`: at no Mino time is the returned
`t` a number, although `r`, `theta` and `phi` are the ones of the plunge. -/
theorem C18_equatorial_violation (a E L r1 r3 r4 : ℝ) (q : Phases) (hr1 : r1 ≠ 0)
    (hr : plungingRadialRoots a E L 0 = .ok (.real r1 0 r3 r4)) (T : Traj)
    (hT : plungingTrajectoryNat a E L 0 q = .ok T) : T.t = pyInfTimes := by
  unfold plungingTrajectoryNat at hT
  rw [hr, bind_ok] at hT
  simp only [realPlungeTrajectoryNat] at hT
  obtain ⟨⟨zm, zp⟩, hz, hT⟩ := bind_eq_ok.mp hT
  obtain ⟨P, hP, hT⟩ := bind_eq_ok.mp hT
  have hg : gammaIsInf (r1, 0, r3, r4) := by
    simp only [gammaIsInf, sub_zero, add_zero]
    exact div_self hr1
  rw [if_pos hg] at hT
  rw [← Except.ok.inj hT]

/-! ## C19 -/

lemma assembleTrajectory_shift (R P : PhaseSols) (m : MinoFreqs) (q : Phases) (l0 l : ℝ) :
    let T := assembleTrajectory R P m q
    (assembleTrajectory R P m
      ⟨T.t l0, q.qr + m.upsilonR * l0, q.qtheta + m.upsilonTheta * l0, T.phi l0⟩).at l
      = T.at (l0 + l) := by
  simp only [assembleTrajectory, Traj.at, Vec4.mk.injEq]
  have h1 : m.upsilonR * l + (q.qr + m.upsilonR * l0) = m.upsilonR * (l0 + l) + q.qr := by ring
  have h2 : m.upsilonTheta * l + (q.qtheta + m.upsilonTheta * l0)
      = m.upsilonTheta * (l0 + l) + q.qtheta := by ring
  have h3 : q.qr + m.upsilonR * l0 = m.upsilonR * l0 + q.qr := by ring
  have h4 : q.qtheta + m.upsilonTheta * l0 = m.upsilonTheta * l0 + q.qtheta := by ring
  rw [h1, h2, h3, h4]
  refine ⟨by ring, rfl, rfl, by ring⟩

lemma assemblePlunge_shift (R P : PhaseSols) (uR uT : ℝ) (q : Phases) (l0 l : ℝ) :
    let T := assemblePlunge R P uR uT q
    (assemblePlunge R P uR uT
      ⟨T.t l0, q.qr + uR * l0, q.qtheta + uT * l0, T.phi l0⟩).at l = T.at (l0 + l) := by
  simp only [assemblePlunge, Traj.at, Vec4.mk.injEq]
  have h1 : uR * l + (q.qr + uR * l0) = uR * (l0 + l) + q.qr := by ring
  have h2 : uT * l + (q.qtheta + uT * l0 + π / 2) = uT * (l0 + l) + (q.qtheta + π / 2) := by ring
  have h3 : q.qr + uR * l0 = uR * l0 + q.qr := by ring
  have h4 : q.qtheta + uT * l0 + π / 2 = uT * l0 + (q.qtheta + π / 2) := by ring
  rw [h1, h2, h3, h4]
  refine ⟨by ring, rfl, rfl, by ring⟩

/-- **C19.** Time translation for stable orbits: restarting from the state at Mino time `l0` (time and
azimuth reached, phases advanced by the returned frequencies) continues the same trajectory. -/
theorem C19_stable (rs : RootScalar) (a p e x : ℝ) (q : Phases) (T : Traj) (m : MinoFreqs) (l0 : ℝ)
    (hT : stableTrajectoryNat rs a p e x q = .ok T) (hm : minoFrequencies rs a p e x = .ok m) :
    ∃ T', stableTrajectoryNat rs a p e x
        ⟨T.t l0, q.qr + m.upsilonR * l0, q.qtheta + m.upsilonTheta * l0, T.phi l0⟩ = .ok T'
      ∧ ∀ l, T'.at l = T.at (l0 + l) := by
  obtain ⟨m', cs, zz, hm', hcs, rfl, rfl⟩ := stableTrajectoryNat_ok hT
  obtain rfl : m = m' := Except.ok.inj (hm.symm.trans hm')
  exact ⟨_, stableTrajectoryNat_of hm hcs _, fun l => assembleTrajectory_shift _ _ _ _ _ _⟩

/-- **C19.** Time translation for plunging orbits. -/
theorem C19_plunging (a E L Q : ℝ) (q : Phases) (T : Traj) (uR uT l0 : ℝ)
    (ha : a ≠ 0) (hE : E ^ 2 ≠ 1)
    (hQ : Q = 0 → ∀ r1 r2 r3 r4, plungingRadialRoots a E L Q ≠ .ok (.real r1 r2 r3 r4))
    (hT : plungingTrajectoryNat a E L Q q = .ok T)
    (hm : plungingMinoFrequencies a E L Q = .ok (uR, uT)) :
    ∃ T', plungingTrajectoryNat a E L Q ⟨T.t l0, q.qr + uR * l0, q.qtheta + uT * l0, T.phi l0⟩
        = .ok T'
      ∧ ∀ l, T'.at l = T.at (l0 + l) := by
  obtain ⟨uR', uT', hm', R, P, h⟩ := plungingTrajectoryNat_ok hT
  rw [hm] at hm'
  simp only [Except.ok.injEq, Prod.mk.injEq] at hm'
  obtain ⟨rfl, rfl⟩ := hm'
  rcases h with ⟨rfl, hall⟩ | ⟨m, rfl, rfl, r1, r2, r3, r4, hr, ⟨-, rfl, hall⟩ | ⟨hg, -⟩⟩
  · exact ⟨_, hall _, fun l => assemblePlunge_shift _ _ _ _ _ _ _⟩
  · exact ⟨_, hall _, fun l => assembleTrajectory_shift _ _ _ _ _ _⟩
  · exact absurd hg (finite_gamma ha hE (fun h0 => hQ h0 r1 r2 r3 r4 hr) hr)

/-- Non-vacuity of C18 and C19 (stable): `stable_trajectory(0.9, 13, 0.5, 0.3)` returns. -/
example (rs : RootScalar) (q : Phases) :
    (stableTrajectoryNat rs (9 / 10) 13 (1 / 2) (3 / 10) q).Returns ∧
    (minoFrequencies rs (9 / 10) 13 (1 / 2) (3 / 10)).Returns := by
  have hb : Spec.BoundOrbit rs (9 / 10) 13 (1 / 2) (3 / 10) :=
    C11_accepts_wide _ _ _ _ _ (by norm_num [abs_lt]) (by norm_num) (by norm_num)
      (by norm_num [abs_le]) (by norm_num)
  obtain ⟨cs, hcs⟩ := (C11_constants_contract rs (9 / 10) 13 (1 / 2) (3 / 10) none none).2.2.2.1.mpr hb
  obtain ⟨m, hm⟩ := (C12_frequency_contract rs (9 / 10) 13 (1 / 2) (3 / 10) none none none).2.2.2.2.1.1.mpr
    ⟨hb, by norm_num, by norm_num⟩
  exact ⟨⟨_, stableTrajectoryNat_of hm hcs q⟩, ⟨m, hm⟩⟩

/-! ## C25 -/

/-- **C25.** `fundamental_frequencies` is `mino_frequencies` divided by `Gamma`, component by
component, for every input (when one raises, so does the other), and `Upsilon_theta ≥ 0`. -/
theorem C25_fundamental (rs : RootScalar) (a p e x : ℝ) (m : MinoFreqs)
    (hm : minoFrequencies rs a p e x = .ok m) :
    fundamentalFrequencies rs a p e x
      = .ok (m.upsilonR / m.gamma, m.upsilonTheta / m.gamma, m.upsilonPhi / m.gamma)
    ∧ 0 ≤ m.upsilonTheta := by
  rw [minoFrequencies_eq, guard_bind_ok_iff] at hm
  obtain ⟨hg, rfl⟩ := hm
  rw [fundamentalFrequencies_eq, hg, bind_ok]
  exact ⟨rfl, abs_nonneg _⟩

/-- **C25.** The frequencies returned separately agree with the tuple (up to the absolute value taken
on the polar one). -/
theorem C25_components (rs : RootScalar) (a p e x : ℝ) (m : MinoFreqs)
    (hm : minoFrequencies rs a p e x = .ok m) :
    rFrequency rs a p e x = .ok m.upsilonR
    ∧ (∃ u, thetaFrequency rs a p e x = .ok u ∧ |u| = m.upsilonTheta)
    ∧ phiFrequency rs a p e x = .ok m.upsilonPhi
    ∧ gamma rs a p e x = .ok m.gamma := by
  rw [minoFrequencies_eq, guard_bind_ok_iff] at hm
  obtain ⟨hg, rfl⟩ := hm
  have hf := (minoGuard_ok_iff rs (sa a) p e (sx a x)).mp hg
  rw [rFrequency_eq, thetaFrequency_eq, phiFrequency_eq, gamma_eq, hf]
  exact ⟨rfl, ⟨_, rfl, rfl⟩, rfl, rfl⟩

end KGP
