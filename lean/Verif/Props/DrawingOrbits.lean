import Verif.Props.Drawing
import Verif.Props.KerrOrbits
import Verif.Props.Plunge

/-!
# C55, C56 for the orbits themselves
-/

namespace KGP

open Classical Real

/-- Every trajectory of a `StableOrbit`, for whatever phases, stays outside the horizon. -/
lemma stableOrbit_outside (rs : RootScalar) (a p e x : ℝ) (q : Phases) (M mu : Option ℝ) (o : OrbitObj)
    (pos0 vel0 : Vec4) (ho : mkStableOrbit rs a p e x q M mu = .ok (o, pos0, vel0))
    (hp : 0 < Spec.signedX a x → p ≤ 4 → Spec.DivisorsNonzero a p e x)
    (hne : Spec.signedX a x < 0 ∨ ∀ E L Q, constantsOfMotion rs a p e x = .ok (E, L, Q) →
      E * ((1 + √(1 - a ^ 2)) ^ 2 + a ^ 2) ≠ |a| * L) (q' : Phases) :
    ∃ T, o.trajectoryNat rs (some q') = .ok T ∧ ∀ lam, 1 + √(1 - o.a ^ 2) < T.r lam := by
  obtain ⟨h, hx0, he1⟩ := (C41_constructible rs a p e x q M mu).mp ⟨_, ho⟩
  obtain ⟨h', hcc, hdd⟩ := bound_std h
  obtain ⟨T, m, E, L, Q, r1, r2, r3, r4, hT, hm, hc, hr, hb, -⟩ :=
    orbit_hyps q' h' (abs_nonneg a) he1 (by rwa [Ne, signedX_eq_zero]) (fun h1 h2 => hdd.mpr (hp h1 h2))
      (hne.imp_right fun h E L Q hc => by rw [sq_abs]; exact h E L Q (hcc ▸ hc))
  obtain ⟨k1, k2, k3, -⟩ := C41_attributes rs a p e x q M mu o pos0 vel0 ho
  obtain ⟨m', zm, zp, D⟩ := stableData_of (abs_nonneg a) hT hc hr
  refine ⟨T, ?_, fun lam => ?_⟩
  · unfold OrbitObj.trajectoryNat
    simp only [k1, k2, k3, Option.getD_some, if_true, hT]
  · have := (D.outside hb lam).2
    rwa [k1]

/-- **C55 for `StableOrbit`.** Under the hypotheses of C54 on the orbit, for every camera, phases, time range and density
giving at least two points: `plot` draws the positions at equally spaced instants, and a point is masked exactly if it is hidden behind
the black hole. -/
theorem C55_stable_orbit (rs : RootScalar) (a p e x : ℝ) (q : Phases) (M mu : Option ℝ) (o : OrbitObj)
    (pos0 vel0 : Vec4) (ho : mkStableOrbit rs a p e x q M mu = .ok (o, pos0, vel0))
    (hp : 0 < Spec.signedX a x → p ≤ 4 → Spec.DivisorsNonzero a p e x)
    (hne : Spec.signedX a x < 0 ∨ ∀ E L Q, constantsOfMotion rs a p e x = .ok (E, L, Q) →
      E * ((1 + √(1 - a ^ 2)) ^ 2 + a ^ 2) ≠ |a| * L)
    (lambda0 lambda1 el az lw density : ℝ) (q' : Option Phases) (tau : Option ℝ) (N : ℕ)
    (hd : 0 ≤ (lambda1 - lambda0) * density) (hN : (N : ℤ) = ⌊(lambda1 - lambda0) * density⌋) (h2 : 2 ≤ N) :
    ∃ T D, o.trajectoryNat rs q' = .ok T ∧ o.plot rs lambda0 lambda1 el az q' lw tau density = .ok D
      ∧ D.points.length = N
      ∧ ∀ k < N, ∃ m, D.points[k]? = some m
          ∧ let pt := cartesian T (Spec.instant lambda0 lambda1 N k)
            m.x = pt.x ∧ m.y = pt.y
            ∧ (Spec.Visible (1 + √(1 - a ^ 2)) (viewNormal el az) pt → m.z = some pt.z)
            ∧ (¬ Spec.Visible (1 + √(1 - a ^ 2)) (viewNormal el az) pt → m.z = none) := by
  obtain ⟨T, hT, hout⟩ := stableOrbit_outside rs a p e x q M mu o pos0 vel0 ho hp hne (q'.getD o.phases)
  obtain ⟨D, hD, hl, -, -, -, hpts, -⟩ := C55_plot rs o lambda0 lambda1 el az lw density q' tau T N hT hd hN h2
  have hoa : o.a = |a| := (C41_attributes rs a p e x q M mu o pos0 vel0 ho).1
  have hT' : o.trajectoryNat rs q' = .ok T := by
    rw [← hT]; unfold OrbitObj.trajectoryNat; simp
  refine ⟨T, D, hT', hD, hl, fun k hk => ?_⟩
  obtain ⟨m, h1, ⟨hx, hy, hz, hv⟩, -⟩ := hpts k hk
  have hr : (1 + √(1 - o.a ^ 2)) ^ 2 < (cartesian T (Spec.instant lambda0 lambda1 N k)).dot
      (cartesian T (Spec.instant lambda0 lambda1 N k)) := by
    rw [C29_cartesian]
    have h0 : (0:ℝ) < 1 + √(1 - o.a ^ 2) := by positivity
    have := hout (Spec.instant lambda0 lambda1 N k)
    nlinarith
  have hv := hv hr
  rw [hoa, sq_abs] at hv
  refine ⟨m, h1, hx, hy, hv.mpr, fun h => ?_⟩
  rcases hz with hz | hz
  · exact absurd (hv.mp hz) h
  · exact hz

/-- **C56 for `StableOrbit`.** In every frame of the animation of a `StableOrbit` a tail point is masked exactly if it is
hidden behind the black hole for the camera of that frame. -/
theorem C56_stable_orbit (rs : RootScalar) (a p e x : ℝ) (q : Phases) (M mu : Option ℝ) (o : OrbitObj)
    (pos0 vel0 : Vec4) (ho : mkStableOrbit rs a p e x q M mu = .ok (o, pos0, vel0))
    (hp : 0 < Spec.signedX a x → p ≤ 4 → Spec.DivisorsNonzero a p e x)
    (hne : Spec.signedX a x < 0 ∨ ∀ E L Q, constantsOfMotion rs a p e x = .ok (E, L, Q) →
      E * ((1 + √(1 - a ^ 2)) ^ 2 + a ^ 2) ≠ |a| * L)
    (lambda0 lambda1 speed : ℝ) (cam : Camera) (q' : Option Phases) (tau : Option ℝ) (N step tail : ℕ)
    (hl : lambda0 ≤ lambda1) (hs : 0 ≤ speed) (hN : (N : ℤ) = ⌊(lambda1 - lambda0) * 240⌋)
    (hstep : (step : ℤ) = ⌊speed * 8⌋) (h2 : 2 ≤ N) (h1 : 1 ≤ step) (ht : 1 ≤ tail) :
    ∃ T s frames, o.trajectoryNat rs q' = .ok T
      ∧ o.animate rs lambda0 lambda1 cam q' tau (.int tail) speed = .ok (s, frames)
      ∧ frames.length = N / step
      ∧ ∀ i F, frames[i]? = some F →
        let j := step * i
        F.body = cartesian T (Spec.instant lambda0 lambda1 N j) ∧ F.points.length = min j (240 * tail)
        ∧ ∀ k < F.points.length, ∃ m, F.points[k]? = some m
          ∧ let pt := cartesian T (Spec.instant lambda0 lambda1 N (j - F.points.length + k))
            m.x = pt.x ∧ m.y = pt.y
            ∧ (Spec.Visible (1 + √(1 - a ^ 2)) (viewNormal F.elevation F.azimuth) pt → m.z = some pt.z)
            ∧ (¬ Spec.Visible (1 + √(1 - a ^ 2)) (viewNormal F.elevation F.azimuth) pt → m.z = none) := by
  obtain ⟨T, hT, hout⟩ := stableOrbit_outside rs a p e x q M mu o pos0 vel0 ho hp hne (q'.getD o.phases)
  have hoa : o.a = |a| := (C41_attributes rs a p e x q M mu o pos0 vel0 ho).1
  have hT' : o.trajectoryNat rs q' = .ok T := by
    rw [← hT]; unfold OrbitObj.trajectoryNat; simp
  obtain ⟨s, frames, han, hfl, -, -, hfr⟩ :=
    C56_animate rs o lambda0 lambda1 speed cam q' tau T N step tail hT' hl hs hN hstep h2 h1 ht
  refine ⟨T, s, frames, hT', han, hfl, fun i F hF => ?_⟩
  obtain ⟨-, hbody, -, -, -, -, hlen, hpts, -⟩ := hfr i F hF
  have hlen' : F.points.length = min (step * i) (240 * tail) := by rw [hlen]; omega
  refine ⟨hbody, hlen', fun k hk => ?_⟩
  rw [hlen] at hk
  obtain ⟨m, g1, hx, hy, hz, hv⟩ := hpts k hk
  have hidx : step * i - F.points.length + k = step * i - 240 * tail + k := by rw [hlen]; omega
  rw [hidx]
  have hr : (1 + √(1 - o.a ^ 2)) ^ 2 < (cartesian T (Spec.instant lambda0 lambda1 N (step * i - 240 * tail + k))).dot
      (cartesian T (Spec.instant lambda0 lambda1 N (step * i - 240 * tail + k))) := by
    rw [C29_cartesian]
    have h0 : (0:ℝ) < 1 + √(1 - o.a ^ 2) := by positivity
    have := hout (Spec.instant lambda0 lambda1 N (step * i - 240 * tail + k))
    nlinarith
  have hv := hv hr
  rw [hoa, sq_abs] at hv
  refine ⟨m, g1, hx, hy, hv.mpr, fun h => ?_⟩
  rcases hz with hz | hz
  · exact absurd (hv.mp hz) h
  · exact hz

/-- Non-vacuity of C55 and C56: the default `plot` and `animate` of a retrograde inclined eccentric orbit:
2000 points, and 300 frames. -/
example (rs : RootScalar) (q : Phases) : ∃ o pos0 vel0 T D s frames,
    mkStableOrbit rs (9 / 10) 13 (1 / 2) (-1 / 2) q = .ok (o, pos0, vel0)
    ∧ o.trajectoryNat rs = .ok T ∧ o.plot rs = .ok D ∧ D.points.length = 2000
    ∧ o.animate rs = .ok (s, frames) ∧ frames.length = 300 := by
  have hB : Spec.BoundOrbit rs (9 / 10) 13 (1 / 2) (-1 / 2) :=
    C11_accepts_wide rs _ _ _ _ (by norm_num [abs_lt]) (by norm_num) (by norm_num)
      (by norm_num [abs_le]) (by norm_num)
  obtain ⟨⟨o, pos0, vel0⟩, ho⟩ := (C41_constructible rs (9 / 10) 13 (1 / 2) (-1 / 2) q none none).mpr
    ⟨hB, by norm_num, by norm_num⟩
  have hs : Spec.signedX (9 / 10) (-1 / 2) = -1 / 2 := by unfold Spec.signedX; norm_num
  obtain ⟨T, D, hT, hD, hl, -⟩ := C55_stable_orbit rs (9 / 10) 13 (1 / 2) (-1 / 2) q none none o pos0 vel0 ho
    (fun h => absurd h (by rw [hs]; norm_num)) (.inl (by rw [hs]; norm_num)) 0 10 30 (-60) 1 200 none none 2000
    (by norm_num) (by norm_num) (by norm_num)
  obtain ⟨T', s, frames, -, hA, hfl, -⟩ := C56_stable_orbit rs (9 / 10) 13 (1 / 2) (-1 / 2) q none none o pos0 vel0 ho
    (fun h => absurd h (by rw [hs]; norm_num)) (.inl (by rw [hs]; norm_num)) 0 10 1 {} none (some 2) 2400 8 5
    (by norm_num) (by norm_num) (by norm_num) (by norm_num) (by norm_num) (by norm_num) (by norm_num)
  exact ⟨o, pos0, vel0, T, D, s, frames, ho, hT, hD, hl, hA, hfl⟩

/-- Non-vacuity of `C56_float_tail_violated`: the default animation of that orbit with `tail_length=5.0`. -/
example (rs : RootScalar) (q : Phases) : ∃ o pos0 vel0,
    mkStableOrbit rs (9 / 10) 13 (1 / 2) (-1 / 2) q = .ok (o, pos0, vel0)
    ∧ o.animate rs (tailLength := .float 5) = .error .typeError := by
  have hB : Spec.BoundOrbit rs (9 / 10) 13 (1 / 2) (-1 / 2) :=
    C11_accepts_wide rs _ _ _ _ (by norm_num [abs_lt]) (by norm_num) (by norm_num)
      (by norm_num [abs_le]) (by norm_num)
  obtain ⟨⟨o, pos0, vel0⟩, ho⟩ := (C41_constructible rs (9 / 10) 13 (1 / 2) (-1 / 2) q none none).mpr
    ⟨hB, by norm_num, by norm_num⟩
  obtain ⟨T, U, hT, -⟩ := (C41_attributes rs _ _ _ _ q none none o pos0 vel0 ho).2.2.2.2.2.2.2.2.2.1
  exact ⟨o, pos0, vel0, ho, C56_float_tail_violated rs o 0 10 1 5 {} none (some 2) T 2400 8 hT (by norm_num)
    (by norm_num) (by norm_num) (by norm_num) (by norm_num) (by norm_num) (by norm_num) (by norm_num)⟩

lemma R_neg_of_neg {a E L Q r : ℝ} (hE : E ^ 2 < 1) (hQ : 0 ≤ Q) (hr : r < 0) : Spec.R a E L Q r < 0 := by
  have h : Spec.R a E L Q r = -((1 - E ^ 2) * (r ^ 2) ^ 2) + 2 * r * r ^ 2
      - (a ^ 2 * (1 - E ^ 2) + L ^ 2 + Q) * r ^ 2 + 2 * ((L - a * E) ^ 2 + Q) * r - a ^ 2 * Q := by
    unfold Spec.R Spec.Delta; ring
  have h0 : 0 < 1 - E ^ 2 := by linarith
  have hr2 : 0 < r ^ 2 := by have h := hr.ne; positivity
  have h1 : 0 ≤ (1 - E ^ 2) * (r ^ 2) ^ 2 := by positivity
  have h2 : r * r ^ 2 < 0 := mul_neg_of_neg_of_pos hr hr2
  have h3 : 0 ≤ (a ^ 2 * (1 - E ^ 2) + L ^ 2 + Q) * r ^ 2 := by positivity
  have h4 : ((L - a * E) ^ 2 + Q) * r ≤ 0 := mul_nonpos_of_nonneg_of_nonpos (by positivity) hr.le
  have h5 : 0 ≤ a ^ 2 * Q := by positivity
  rw [h]
  linarith

/-- A point seen from straight above is in front of the viewing plane, at height `r`. -/
lemma cartesian_dot_normal (T : Traj) (lam : ℝ) :
    (cartesian T lam).dot (viewNormal (90 - T.theta lam * 180 / π) (T.phi lam * 180 / π)) = T.r lam := by
  have h1 : (90 - T.theta lam * 180 / π) * π / 180 = π / 2 - T.theta lam := by
    field_simp; ring
  have h2 : T.phi lam * 180 / π * π / 180 = T.phi lam := by field_simp
  simp only [viewNormal, h1, h2, cartesian, Pt.dot, cos_pi_div_two_sub, sin_pi_div_two_sub]
  have k1 := sin_sq_add_cos_sq (T.theta lam)
  have k2 := sin_sq_add_cos_sq (T.phi lam)
  generalize cos (T.theta lam) = c at *
  generalize sin (T.theta lam) = s at *
  generalize cos (T.phi lam) = c' at *
  generalize sin (T.phi lam) = s' at *
  linear_combination T.r lam * k1 + T.r lam * s ^ 2 * k2

/-- **C55 (violated for plunges).** Every `PlungingOrbit` whose radial potential has two complex roots (and does not
vanish on a horizon) can be plotted so that a point inside the horizon, which should be hidden, is drawn: over the time range from its
innermost to its outermost radius, seen from above the innermost point. -/
theorem C55_plunge_violated (rs : RootScalar) {a E L Q r1 r2 : ℝ} {r3 r4 : ℂ} (q : Phases) (M mu : Option ℝ)
    (o : OrbitObj) (pos vel : Vec4) (ho : mkPlungingOrbit rs a E L Q q M mu = .ok (o, pos, vel))
    (ha1 : a ^ 2 < 1) (hE : E ^ 2 < 1) (hQ : 0 ≤ Q)
    (hr : plungingRadialRoots a E L Q = .ok (.cplx r1 r2 r3 r4))
    (hh : E * ((1 + √(1 - a ^ 2)) ^ 2 + a ^ 2) ≠ a * L) :
    ∃ (T : Traj) (lambda0 lambda1 el az density : ℝ) (D : PlotData) (m : MaskedPt),
      o.trajectoryNat rs = .ok T ∧ lambda0 < lambda1 ∧ 0 < density
      ∧ o.plot rs lambda0 lambda1 el az none 1 none density = .ok D ∧ D.points[0]? = some m
      ∧ m.x = (cartesian T lambda0).x ∧ m.y = (cartesian T lambda0).y ∧ m.z = some (cartesian T lambda0).z
      ∧ 0 ≤ T.r lambda0 ∧ T.r lambda0 < 1 + √(1 - a ^ 2)
      ∧ ¬ Spec.Visible (1 + √(1 - a ^ 2)) (viewNormal el az) (cartesian T lambda0) := by
  obtain ⟨⟨T, hT⟩, ⟨uR, uT⟩, hu⟩ := C31_returns _ _ _ _ _ _ _ _ q hr
  obtain ⟨ho1, ho2, ho3⟩ : o.a = a ∧ o.phases = q ∧ o.trajectoryNat rs = .ok T := by
    unfold mkPlungingOrbit at ho
    obtain ⟨-, -, ho⟩ := bind_eq_ok.mp ho
    obtain ⟨⟨u, v⟩, -, ho⟩ := bind_eq_ok.mp ho
    obtain ⟨U, -, ho⟩ := bind_eq_ok.mp ho
    obtain ⟨T', -, ho⟩ := bind_eq_ok.mp ho
    have ho' := Except.ok.inj ho
    simp only [Prod.mk.injEq] at ho'
    obtain ⟨rfl, -, -⟩ := ho'
    refine ⟨rfl, rfl, ?_⟩
    unfold OrbitObj.trajectoryNat
    simp only [Option.getD_none, Bool.false_eq_true, if_false, hT]
  have hT' : o.trajectoryNat rs (some ((none : Option Phases).getD o.phases)) = .ok T := by
    rw [← ho3]; unfold OrbitObj.trajectoryNat; simp
  obtain ⟨hU, -, hper, hapo⟩ := C31_period hE hr hu hT
  have hs : √(1 - a ^ 2) ^ 2 = 1 - a ^ 2 := Real.sq_sqrt (by linarith)
  obtain ⟨b1, b2⟩ := horizons_between hE hr (rh := 1 + √(1 - a ^ 2))
    (by unfold Spec.Delta; linear_combination hs) hh
  have hr1 : 0 ≤ r1 := by
    by_contra hc
    have h1 := R_neg_of_neg (a := a) (L := L) hE hQ (not_le.mp hc)
    rw [(C30_complex a E L Q r1 r2 r3 r4 hE.ne hr).2.2.2] at h1
    simp at h1
  have e0 : T.r (-q.qr / uR) = r1 := hper _ (by field_simp; ring)
  have e1 : T.r (-q.qr / uR + π / uR) = r2 := hapo _ (by field_simp; ring)
  have hd : (-q.qr / uR + π / uR - -q.qr / uR) * (2 * uR / π) = 2 := by
    rw [add_sub_cancel_left]; field_simp
  have i0 : Spec.instant (-q.qr / uR) (-q.qr / uR + π / uR) 2 0 = -q.qr / uR := by simp [Spec.instant]
  have i1 : Spec.instant (-q.qr / uR) (-q.qr / uR + π / uR) 2 1 = -q.qr / uR + π / uR := by
    simp [Spec.instant]; norm_num
  have hN : ((2:ℕ) : ℤ) = ⌊(-q.qr / uR + π / uR - -q.qr / uR) * (2 * uR / π)⌋ := by rw [hd]; norm_num
  have key := C55_inside_violated rs o (-q.qr / uR) (-q.qr / uR + π / uR)
    (90 - T.theta (-q.qr / uR) * 180 / π) (T.phi (-q.qr / uR) * 180 / π) 1 (2 * uR / π) none none T 2 0 1 hT'
    (by rw [hd]; norm_num) hN le_rfl (by norm_num) (by norm_num)
    (by rw [i0, e0, ho1, abs_of_nonneg hr1]; exact b1) (by rw [i1, e1, ho1]; exact b2)
    (by rw [i0, cartesian_dot_normal, e0]; exact hr1)
  obtain ⟨D, m, hD, hm, hz, hv⟩ := key
  obtain ⟨D', hD', -, -, -, -, hpts, -⟩ := C55_plot rs o (-q.qr / uR) (-q.qr / uR + π / uR)
    (90 - T.theta (-q.qr / uR) * 180 / π) (T.phi (-q.qr / uR) * 180 / π) 1 (2 * uR / π) none none T 2 hT'
    (by rw [hd]; norm_num) hN le_rfl
  obtain rfl := Except.ok.inj (hD'.symm.trans hD)
  obtain ⟨m', hm', ⟨hx, hy, -⟩, -⟩ := hpts 0 (by norm_num)
  obtain rfl := Option.some.inj (hm'.symm.trans hm)
  rw [i0] at hz hv hx hy
  rw [ho1] at hv
  exact ⟨T, _, _, _, _, _, D', m', ho3, by have := div_pos Real.pi_pos hU; linarith, by positivity, hD, hm, hx, hy,
    hz, by rw [e0]; exact hr1, by rw [e0]; exact b1, hv⟩

/-- Non-vacuity of `C55_plunge_violated`. -/
example (rs : RootScalar) (q : Phases) : ∃ o pos vel lambda0 lambda1 el az density D m,
    mkPlungingOrbit rs (4 / 5) (√(66825 / 91777)) (4 / 5 * √(66825 / 91777)) (98 / 1873) q none none
      = .ok (o, pos, vel)
    ∧ o.plot rs lambda0 lambda1 el az none 1 none density = .ok D ∧ D.points[0]? = some m ∧ m.z ≠ none := by
  obtain ⟨r3, r4, hr, -⟩ := exPlunge_roots
  obtain ⟨⟨T, hT⟩, u, hu⟩ := C31_returns _ _ _ _ _ _ _ _ q hr
  have hE : √(66825 / 91777) ^ 2 < (1 : ℝ) := by rw [exPlungeE]; norm_num
  have hE0 : 0 < √(66825 / 91777 : ℝ) := Real.sqrt_pos.mpr (by norm_num)
  obtain ⟨o, pos, vel, ho⟩ : ∃ o pos vel,
      mkPlungingOrbit rs (4 / 5) (√(66825 / 91777)) (4 / 5 * √(66825 / 91777)) (98 / 1873) q none none
        = .ok (o, pos, vel) := by
    unfold mkPlungingOrbit
    simp only [raiseIf, show ¬ ((4:ℝ) / 5 = 0) by norm_num, if_false, hu, bind_ok,
      OrbitObj.fourVelocity, OrbitObj.trajectoryNat, Option.getD_none, Option.getD_some,
      Bool.false_eq_true, hT]
    exact ⟨_, _, _, rfl⟩
  have h53 : √(1 - ((4:ℝ) / 5) ^ 2) = 3 / 5 := by
    rw [show (1 : ℝ) - (4 / 5) ^ 2 = (3 / 5) ^ 2 by norm_num, Real.sqrt_sq (by norm_num)]
  obtain ⟨T', l0, l1, el, az, d, D, m, -, -, -, h1, h2, -, -, h3, -⟩ := C55_plunge_violated rs q none none o pos vel ho
    (by norm_num) hE (by norm_num) hr (by rw [h53]; intro h; nlinarith)
  exact ⟨o, pos, vel, l0, l1, el, az, d, D, m, ho, h1, h2, by rw [h3]; simp⟩

end KGP
