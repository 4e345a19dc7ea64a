import Verif.Model.Extra
import Verif.Props.Plot
import Verif.Props.InitialValue
import Mathlib.Analysis.Calculus.Taylor

/-!
# C38: accuracy of the numerical four-velocity; C39: the interpolator
-/

namespace KGP

open Classical Real

lemma taylor5 {f : ℝ → ℝ} (hf : ContDiff ℝ 5 f) {x₀ x : ℝ} (hx : x₀ ≠ x) :
    ∃ y ∈ Set.uIcc x₀ x, f x = f x₀ + deriv f x₀ * (x - x₀) + iteratedDeriv 2 f x₀ * (x - x₀) ^ 2 / 2
      + iteratedDeriv 3 f x₀ * (x - x₀) ^ 3 / 6 + iteratedDeriv 4 f x₀ * (x - x₀) ^ 4 / 24
      + iteratedDeriv 5 f y * (x - x₀) ^ 5 / 120 := by
  have hu : UniqueDiffOn ℝ (Set.uIcc x₀ x) := uniqueDiffOn_Icc (by
    rcases lt_or_gt_of_ne hx with h | h
    · rw [min_eq_left h.le, max_eq_right h.le]; exact h
    · rw [min_eq_right h.le, max_eq_left h.le]; exact h)
  have hder : ∀ k : ℕ, k ≤ 5 → ∀ y ∈ Set.uIcc x₀ x, iteratedDerivWithin k f (Set.uIcc x₀ x) y = iteratedDeriv k f y :=
    fun k hk y hy => iteratedDerivWithin_eq_iteratedDeriv hu
      (hf.contDiffAt.of_le (by exact_mod_cast hk)) hy
  have hd : DifferentiableOn ℝ (iteratedDerivWithin 4 f (Set.uIcc x₀ x)) (Set.uIoo x₀ x) := by
    have h1 : Differentiable ℝ (iteratedDeriv 4 f) := hf.differentiable_iteratedDeriv 4 (by norm_num)
    refine (h1.differentiableOn).congr fun y hy => hder 4 (by norm_num) y (Set.uIoo_subset_uIcc_self hy)
  obtain ⟨y, hy, h⟩ := taylor_mean_remainder_lagrange (n := 4) hx (hf.of_le (by norm_num)).contDiffOn hd
  refine ⟨y, Set.uIoo_subset_uIcc_self hy, ?_⟩
  rw [hder 5 (by norm_num) y (Set.uIoo_subset_uIcc_self hy), taylor_within_apply] at h
  simp only [Finset.sum_range_succ, Finset.sum_range_zero, smul_eq_mul] at h
  rw [hder 0 (by norm_num) _ Set.left_mem_uIcc, hder 1 (by norm_num) _ Set.left_mem_uIcc,
    hder 2 (by norm_num) _ Set.left_mem_uIcc, hder 3 (by norm_num) _ Set.left_mem_uIcc,
    hder 4 (by norm_num) _ Set.left_mem_uIcc, iteratedDeriv_zero, iteratedDeriv_one] at h
  norm_num [Nat.factorial] at h
  linarith

/-- The error of the five-point formula. -/
lemma fivePoint_error {f sig : ℝ → ℝ} {dx lam M : ℝ} (hf : ContDiff ℝ 5 f) (hdx : 0 < dx)
    (hM : ∀ y, |y - lam| ≤ 2 * dx → |iteratedDeriv 5 f y| ≤ M) :
    |fivePoint f sig dx lam - deriv f lam / sig lam| ≤ M * dx ^ 4 / (18 * |sig lam|) := by
  have near : ∀ c : ℝ, |c| ≤ 2 * dx → ∀ y ∈ Set.uIcc lam (lam + c), |iteratedDeriv 5 f y| ≤ M := by
    intro c hc y hy
    apply hM
    have := Set.abs_sub_left_of_mem_uIcc hy
    rw [add_sub_cancel_left] at this
    linarith
  have e2 : |2 * dx| ≤ 2 * dx := by rw [abs_of_pos (by linarith)]
  have e1 : |dx| ≤ 2 * dx := by rw [abs_of_pos hdx]; linarith
  have e3 : |-dx| ≤ 2 * dx := by rw [abs_neg]; exact e1
  have e4 : |-(2 * dx)| ≤ 2 * dx := by rw [abs_neg]; exact e2
  obtain ⟨y1, h1, k1⟩ := taylor5 hf (show lam ≠ lam + 2 * dx by linarith)
  obtain ⟨y2, h2, k2⟩ := taylor5 hf (show lam ≠ lam + dx by linarith)
  obtain ⟨y3, h3, k3⟩ := taylor5 hf (show lam ≠ lam + -dx by linarith)
  obtain ⟨y4, h4, k4⟩ := taylor5 hf (show lam ≠ lam + -(2 * dx) by linarith)
  have b1 := abs_le.mp (near _ e2 _ h1)
  have b2 := abs_le.mp (near _ e1 _ h2)
  have b3 := abs_le.mp (near _ e3 _ h3)
  have b4 := abs_le.mp (near _ e4 _ h4)
  have hid : fivePoint f sig dx lam - deriv f lam / sig lam
      = dx ^ 4 * (-32 * iteratedDeriv 5 f y1 + 8 * iteratedDeriv 5 f y2 + 8 * iteratedDeriv 5 f y3
          - 32 * iteratedDeriv 5 f y4) / 1440 / sig lam := by
    unfold fivePoint
    rw [show lam - dx = lam + -dx by ring, show lam - 2 * dx = lam + -(2 * dx) by ring, k1, k2, k3, k4,
      ← div_div, ← sub_div]
    congr 1
    field_simp
    ring
  rw [hid, abs_div, ← div_div, abs_div, abs_mul, abs_of_pos (show (0:ℝ) < dx ^ 4 by positivity)]
  apply div_le_div_of_nonneg_right _ (abs_nonneg _)
  rw [abs_of_pos (show (0:ℝ) < 1440 by norm_num), div_le_div_iff₀ (by norm_num) (by norm_num)]
  have hb : |(-32 * iteratedDeriv 5 f y1 + 8 * iteratedDeriv 5 f y2 + 8 * iteratedDeriv 5 f y3
          - 32 * iteratedDeriv 5 f y4)| ≤ 80 * M := by
    rw [abs_le]
    constructor <;> linarith [b1.1, b1.2, b2.1, b2.2, b3.1, b3.2, b4.1, b4.2]
  have := mul_le_mul_of_nonneg_left hb (show (0:ℝ) ≤ dx ^ 4 by positivity)
  linarith

/-- **C38 (rate).** For a five times continuously differentiable trajectory the error of every component of
`numerical_four_velocity` with step `dx` is at most `M dx⁴ / (18 Σ)`, where `M` bounds the fifth derivative of that coordinate
within two steps. -/
theorem C38_rate (a : ℝ) (T : Traj) (dx lam M : ℝ) (hdx : 0 < dx) :
    let Sig := T.r lam ^ 2 + a ^ 2 * cos (T.theta lam) ^ 2
    let U := numericalFourVelocityOf a T dx
    let Bounded := fun f : ℝ → ℝ => ContDiff ℝ 5 f ∧ ∀ y, |y - lam| ≤ 2 * dx → |iteratedDeriv 5 f y| ≤ M
    (Bounded T.t → |U.t lam - deriv T.t lam / Sig| ≤ M * dx ^ 4 / (18 * |Sig|))
    ∧ (Bounded T.r → |U.r lam - deriv T.r lam / Sig| ≤ M * dx ^ 4 / (18 * |Sig|))
    ∧ (Bounded T.theta → |U.theta lam - deriv T.theta lam / Sig| ≤ M * dx ^ 4 / (18 * |Sig|))
    ∧ (Bounded T.phi → |U.phi lam - deriv T.phi lam / Sig| ≤ M * dx ^ 4 / (18 * |Sig|)) := by
  intro Sig U Bounded
  obtain ⟨sg, hsg⟩ : ∃ sg : ℝ → ℝ, sg = fun l => T.r l ^ 2 + a ^ 2 * cos (T.theta l) ^ 2 := ⟨_, rfl⟩
  have hSig : Sig = sg lam := by rw [hsg]
  have hU : U = ⟨fivePoint T.t sg dx, fivePoint T.r sg dx, fivePoint T.theta sg dx,
      fivePoint T.phi sg dx⟩ := by rw [hsg]; rfl
  rw [hSig, hU]
  exact ⟨fun h => fivePoint_error h.1 hdx h.2, fun h => fivePoint_error h.1 hdx h.2,
    fun h => fivePoint_error h.1 hdx h.2, fun h => fivePoint_error h.1 hdx h.2⟩

/-- Non-vacuity of `C38_rate`: `t = sin`, whose fifth derivative is bounded by one. -/
example (dx lam : ℝ) (hdx : 0 < dx) :
    |(numericalFourVelocityOf 0 ⟨sin, fun _ => 1, fun _ => 1, fun _ => 0⟩ dx).t lam - cos lam| ≤ dx ^ 4 / 18 := by
  have h := (C38_rate 0 ⟨sin, fun _ => 1, fun _ => 1, fun _ => 0⟩ dx lam 1 hdx).1 ⟨contDiff_sin, fun y _ => ?_⟩
  · simpa using h
  · have : iteratedDeriv 5 sin = cos := by
      simp [iteratedDeriv_succ, iteratedDeriv_zero]
    rw [this]
    exact abs_cos_le_one y

/-- The norm is a continuous function of the velocity. -/
lemma tendsto_norm4 {ι : Type} {l : Filter ι} (a t r th ph : ℝ) {u : ι → Vec4} {v : Vec4}
    (h1 : Filter.Tendsto (fun i => (u i).t) l (nhds v.t)) (h2 : Filter.Tendsto (fun i => (u i).r) l (nhds v.r))
    (h3 : Filter.Tendsto (fun i => (u i).theta) l (nhds v.theta))
    (h4 : Filter.Tendsto (fun i => (u i).phi) l (nhds v.phi)) :
    Filter.Tendsto (fun i => norm4 a t r th ph (u i)) l (nhds (norm4 a t r th ph v)) := by
  have key : ∀ w : Vec4, norm4 a t r th ph w
      = w.t * (metric a t r th ph 0 0 * w.t + metric a t r th ph 0 1 * w.r
          + metric a t r th ph 0 2 * w.theta + metric a t r th ph 0 3 * w.phi)
        + w.r * (metric a t r th ph 1 0 * w.t + metric a t r th ph 1 1 * w.r
          + metric a t r th ph 1 2 * w.theta + metric a t r th ph 1 3 * w.phi)
        + w.theta * (metric a t r th ph 2 0 * w.t + metric a t r th ph 2 1 * w.r
          + metric a t r th ph 2 2 * w.theta + metric a t r th ph 2 3 * w.phi)
        + w.phi * (metric a t r th ph 3 0 * w.t + metric a t r th ph 3 1 * w.r
          + metric a t r th ph 3 2 * w.theta + metric a t r th ph 3 3 * w.phi) := by
    intro w
    unfold norm4
    simp [Vec4.toVec, dotProduct, Matrix.mulVec, Fin.sum_univ_four]
  simp only [key]
  have lin : ∀ c0 c1 c2 c3 : ℝ, Filter.Tendsto
      (fun i => c0 * (u i).t + c1 * (u i).r + c2 * (u i).theta + c3 * (u i).phi) l
      (nhds (c0 * v.t + c1 * v.r + c2 * v.theta + c3 * v.phi)) := fun c0 c1 c2 c3 =>
    (((h1.const_mul c0).add (h2.const_mul c1)).add (h3.const_mul c2)).add (h4.const_mul c3)
  exact (((h1.mul (lin _ _ _ _)).add (h2.mul (lin _ _ _ _))).add (h3.mul (lin _ _ _ _))).add (h4.mul (lin _ _ _ _))

section
variable {rs : RootScalar} {a p e x : ℝ} {q : Phases} {T : Traj} {m : MinoFreqs}
  {E L Q r1 r2 r3 r4 : ℝ} (ha : 0 ≤ a) (hT : stableTrajectoryNat rs a p e x q = .ok T)
  (hm : minoFrequencies rs a p e x = .ok m)
  (hc : constantsOfMotion rs a p e x = .ok (E, L, Q))
  (hr : stableRadialRoots rs a p e x = .ok (r1, r2, r3, r4))
  (hb : Spec.BoundGeodesic a E L Q r1 r2 r3 r4)
include ha hT hm hc hr hb

/-- **C38 (stable orbits).** Along every stable trajectory outside the horizon the numerical four-velocity tends to the
four-velocity returned by `four_velocity`, in all components and at every time (also at turning points). -/
theorem C38_stable (lam : ℝ) :
    let U := fourVelocity a T (E, L, Q) m.upsilonR m.upsilonTheta q
    let N := fun dx => numericalFourVelocityOf a T dx
    let zero := nhdsWithin (0:ℝ) {0}ᶜ
    Filter.Tendsto (fun dx => (N dx).t lam) zero (nhds (U.t lam))
    ∧ Filter.Tendsto (fun dx => (N dx).r lam) zero (nhds (U.r lam))
    ∧ Filter.Tendsto (fun dx => (N dx).theta lam) zero (nhds (U.theta lam))
    ∧ Filter.Tendsto (fun dx => (N dx).phi lam) zero (nhds (U.phi lam)) := by
  intro U N zero
  obtain ⟨h1, h2, h3, h4⟩ := C22_four_velocity ha hT hm hc hr hb lam
  have h := C38_converges a T lam _ _ _ _ h1 h2 h3 h4
  have hS : Spec.Sigma a (T.r lam) (T.theta lam) ≠ 0 := by
    obtain ⟨m', zm, zp, D⟩ := stableData_of ha hT hc hr
    have hout := (D.outside hb lam).2
    have : 0 < T.r lam := by linarith [Real.sqrt_nonneg (1 - a ^ 2)]
    unfold Spec.Sigma; positivity
  have hSd : T.r lam ^ 2 + a ^ 2 * cos (T.theta lam) ^ 2 = Spec.Sigma a (T.r lam) (T.theta lam) := rfl
  simp only [hSd, mul_div_cancel_left₀ _ hS] at h
  exact h

end

/-- **C38 (`StableOrbit`).** For every `StableOrbit` (hypotheses of C54) and every Mino time, `numerical_four_velocity` tends to
`four_velocity` and `_numerical_four_velocity_norm` tends to `-1` as the step goes to zero. -/
theorem C38_stable_orbit (rs : RootScalar) (a p e x : ℝ) (q : Phases) (M mu : Option ℝ) (o : OrbitObj)
    (pos0 vel0 : Vec4) (ho : mkStableOrbit rs a p e x q M mu = .ok (o, pos0, vel0))
    (hp : 0 < Spec.signedX a x → p ≤ 4 → Spec.DivisorsNonzero a p e x)
    (hne : Spec.signedX a x < 0 ∨ ∀ E L Q, constantsOfMotion rs a p e x = .ok (E, L, Q) →
      E * ((1 + √(1 - a ^ 2)) ^ 2 + a ^ 2) ≠ |a| * L) :
    ∃ (U : Traj) (N : ℝ → Traj) (nrm : ℝ → ℝ → ℝ), o.fourVelocity rs = .ok U
      ∧ (∀ dx, o.numericalFourVelocity rs dx = .ok (N dx)) ∧ (∀ dx, o.numericalFourVelocityNorm rs dx = .ok (nrm dx))
      ∧ ∀ lam, Filter.Tendsto (fun dx => (N dx).t lam) (nhdsWithin 0 {0}ᶜ) (nhds (U.t lam))
        ∧ Filter.Tendsto (fun dx => (N dx).r lam) (nhdsWithin 0 {0}ᶜ) (nhds (U.r lam))
        ∧ Filter.Tendsto (fun dx => (N dx).theta lam) (nhdsWithin 0 {0}ᶜ) (nhds (U.theta lam))
        ∧ Filter.Tendsto (fun dx => (N dx).phi lam) (nhdsWithin 0 {0}ᶜ) (nhds (U.phi lam))
        ∧ Filter.Tendsto (fun dx => nrm dx lam) (nhdsWithin 0 {0}ᶜ) (nhds (-1)) := by
  obtain ⟨h, hx0, he1⟩ := (C41_constructible rs a p e x q M mu).mp ⟨_, ho⟩
  obtain ⟨h', hcc, hdd⟩ := bound_std h
  obtain ⟨T1, m, E, L, Q, r1, r2, r3, r4, hT1, hm, hc, hr, hb, -⟩ :=
    orbit_hyps q h' (abs_nonneg a) he1 (by rwa [Ne, signedX_eq_zero]) (fun h1 h2 => hdd.mpr (hp h1 h2))
      (hne.imp_right fun h E L Q hc => by rw [sq_abs]; exact h E L Q (hcc ▸ hc))
  obtain ⟨k1, k2, k3, -, -, k6, k7, k8, -, ⟨T, U, hT, hU, g1, g2, g3, g4⟩, -⟩ :=
    C41_attributes rs a p e x q M mu o pos0 vel0 ho
  obtain rfl : T1 = T := Except.ok.inj (hT1.symm.trans g4)
  have hcs : o.consts = (E, L, Q) := Except.ok.inj ((hcc.trans k7).symm.trans hc)
  have hm' : minoFrequencies rs |a| p e (Spec.signedX a x) = minoFrequencies rs a p e x := by
    rw [← sx_eq, abs_eq_sa, minoFrequencies_eq, minoFrequencies_eq, sa_sa, sx_sa]
  have hmm := Except.ok.inj ((hm'.trans k8).symm.trans hm)
  have u1 : o.upsilonR = m.upsilonR := by rw [← hmm]
  have u2 : o.upsilonTheta = m.upsilonTheta := by rw [← hmm]
  obtain rfl : fourVelocity |a| T1 (E, L, Q) m.upsilonR m.upsilonTheta q = U := by
    unfold OrbitObj.fourVelocity at hU
    simp only [Option.getD_none, k6, g3, bind_ok, pure, Except.pure, k1, hcs, u1, u2] at hU
    exact Except.ok.inj hU
  have hN : ∀ dx q', o.trajectoryNat rs (some (q'.getD o.phases)) = .ok T1 →
      o.numericalFourVelocity rs dx q' = .ok (numericalFourVelocityOf |a| T1 dx) := by
    intro dx q' hq
    rw [← k1]
    apply C38_object
    rw [← hq]
    unfold OrbitObj.trajectoryNat
    simp
  refine ⟨_, fun dx => numericalFourVelocityOf |a| T1 dx, fun dx time => norm4 o.a (T1.t time) (T1.r time)
    (T1.theta time) (T1.phi time) ((numericalFourVelocityOf |a| T1 dx).at time), hU,
    fun dx => hN dx none (by rw [Option.getD_none, k6, g3]), fun dx => ?_, fun lam => ?_⟩
  · unfold OrbitObj.numericalFourVelocityNorm
    have h1 : o.trajectoryNat rs (some ((none : Option Phases).getD o.phases)) = .ok T1 := by
      rw [Option.getD_none, k6, g3]
    simp only [h1, hN dx (some ((none : Option Phases).getD o.phases)) (by rw [Option.getD_some]; exact h1), bind_ok]
    rfl
  · obtain ⟨n1, n2, n3, n4⟩ := C38_stable (abs_nonneg a) hT1 hm hc hr hb lam
    refine ⟨n1, n2, n3, n4, ?_⟩
    rw [k1]
    have hnorm := (C23_norm (abs_nonneg a) hT1 hm hc hr hb lam).1
    rw [← hnorm]
    exact tendsto_norm4 _ _ _ _ _ n1 n2 n3 n4

/-- Non-vacuity of `C38_stable_orbit`. -/
example (rs : RootScalar) (q : Phases) : ∃ o pos0 vel0, ∃ nrm : ℝ → ℝ → ℝ,
    mkStableOrbit rs (9 / 10) 13 (1 / 2) (-1 / 2) q = .ok (o, pos0, vel0)
    ∧ (∀ dx, o.numericalFourVelocityNorm rs dx = .ok (nrm dx))
    ∧ ∀ lam, Filter.Tendsto (fun dx => nrm dx lam) (nhdsWithin 0 {0}ᶜ) (nhds (-1)) := by
  have hB : Spec.BoundOrbit rs (9 / 10) 13 (1 / 2) (-1 / 2) :=
    C11_accepts_wide rs _ _ _ _ (by norm_num [abs_lt]) (by norm_num) (by norm_num)
      (by norm_num [abs_le]) (by norm_num)
  obtain ⟨⟨o, pos0, vel0⟩, ho⟩ := (C41_constructible rs (9 / 10) 13 (1 / 2) (-1 / 2) q none none).mpr
    ⟨hB, by norm_num, by norm_num⟩
  have hs : Spec.signedX (9 / 10) (-1 / 2) = -1 / 2 := by unfold Spec.signedX; norm_num
  obtain ⟨U, N, nrm, -, -, hn, h⟩ := C38_stable_orbit rs (9 / 10) 13 (1 / 2) (-1 / 2) q
    none none o pos0 vel0 ho (fun h => absurd h (by rw [hs]; norm_num)) (.inl (by rw [hs]; norm_num))
  exact ⟨o, pos0, vel0, nrm, ho, hn, fun lam => (h lam).2.2.2.2⟩

/-! ## C39 -/

lemma linspace_strict {lo hi : ℝ} (h : lo < hi) {n i j : ℕ} (hn : 2 ≤ n) (hij : i < j) :
    linspace lo hi n i < linspace lo hi n j := by
  have hne : n ≠ 1 := by omega
  have h2 : (0:ℝ) < (n:ℝ) - 1 := by
    have : (2:ℝ) ≤ n := by exact_mod_cast hn
    linarith
  simp only [linspace, hne, if_false]
  have h3 : (i:ℝ) < j := by exact_mod_cast hij
  have h4 : (hi - lo) * i < (hi - lo) * j := mul_lt_mul_of_pos_left h3 (by linarith)
  have := div_lt_div_of_pos_right h4 h2
  linarith

/-- **C39 (interpolator).** For `0 ≤ a < 1` and a grid spacing `0 < g ≤ 1/4` `fast_separatrix(a, g)` returns a function
which at every grid point agrees with `separatrix`, for every interpolator that passes through its data. -/
theorem C39_interpolates (rs : RootScalar) (lib : SplineLib) (a g : ℝ) (ha : 0 ≤ a) (ha1 : a < 1) (hg : 0 < g)
    (hg4 : g ≤ 1 / 4) :
    ∃ f, fastSeparatrix rs lib a g = .ok f
      ∧ ∀ i j : ℕ, (i : ℤ) < ⌊1 / g⌋ → (j : ℤ) < ⌊2 / g⌋ →
        separatrix rs a ((i : ℝ) / (⌊1 / g⌋ - 1)) (-1 + 2 * (j : ℝ) / (⌊2 / g⌋ - 1))
          = .ok (f ((i : ℝ) / (⌊1 / g⌋ - 1)) (-1 + 2 * (j : ℝ) / (⌊2 / g⌋ - 1))) := by
  obtain ⟨t, ht, hn, -⟩ := C39_grid rs a g ha ha1
  obtain ⟨hE, hX⟩ := hn hg
  have h4 : (4:ℤ) ≤ ⌊1 / g⌋ := by
    rw [Int.le_floor, le_div_iff₀ hg]; push_cast; linarith
  have h8 : (4:ℤ) ≤ ⌊2 / g⌋ := by
    rw [Int.le_floor, le_div_iff₀ hg]; push_cast; linarith
  have hE4 : 4 ≤ t.numE := by omega
  have hX4 : 4 ≤ t.numX := by omega
  have hax : t.eAxis = linspace 0 1 t.numE ∧ t.xAxis = linspace (-1) 1 t.numX := by
    unfold fastSeparatrixTable at ht
    obtain ⟨P, -, h⟩ := bind_eq_ok.mp ht
    cases Except.ok.inj h
    exact ⟨rfl, rfl⟩
  have hcE : (t.numE : ℝ) = (⌊1 / g⌋ : ℝ) := by exact_mod_cast congrArg (Int.cast : ℤ → ℝ) hE
  have hcX : (t.numX : ℝ) = (⌊2 / g⌋ : ℝ) := by exact_mod_cast congrArg (Int.cast : ℤ → ℝ) hX
  refine ⟨lib.interp t.numE t.numX t.eAxis t.xAxis t.table, ?_, fun i j hi hj => ?_⟩
  · unfold fastSeparatrix raiseIf
    have : ¬ (t.numE < 4 ∨ t.numX < 4) := by omega
    simp only [ht, bind_ok, this, if_false]
    rfl
  · obtain ⟨hl, hrow⟩ := C39_table rs a g t ht
    have hi' : i < t.table.length := by omega
    obtain ⟨hl', hent⟩ := hrow i hi'
    have hj' : j < t.table[i].length := by omega
    have hs := hent j hj'
    have hex := lib.exact t.numE t.numX t.eAxis t.xAxis t.table hE4 hX4
      (fun i j h _ => by rw [hax.1]; exact linspace_strict (by norm_num) (by omega) h)
      (fun i j h _ => by rw [hax.2]; exact linspace_strict (by norm_num) (by omega) h)
      i j t.table[i] t.table[i][j] (by omega) (by omega) (List.getElem?_eq_getElem hi') (List.getElem?_eq_getElem hj')
    have e1 : t.eAxis i = (i : ℝ) / (⌊1 / g⌋ - 1) := by
      rw [hax.1, linspace, if_neg (by omega), hcE]; ring
    have e2 : t.xAxis j = -1 + 2 * (j : ℝ) / (⌊2 / g⌋ - 1) := by
      rw [hax.2, linspace, if_neg (by omega), hcX]; ring
    rw [← e1, ← e2, hs, hex]

/-- The contract of the interpolator is satisfiable: look the value up in the table. -/
noncomputable def exampleSpline : SplineLib where
  interp := fun nx ny x y z u v =>
    if h : ∃ i j row w, i < nx ∧ j < ny ∧ x i = u ∧ y j = v ∧ z[i]? = some row ∧ row[j]? = some w
    then h.choose_spec.choose_spec.choose_spec.choose else 0
  exact := by
    intro nx ny x y z _ _ hx hy i j row v hi hj hrow hv
    have h : ∃ i' j' row w, i' < nx ∧ j' < ny ∧ x i' = x i ∧ y j' = y j ∧ z[i']? = some row ∧ row[j']? = some w :=
      ⟨i, j, row, v, hi, hj, rfl, rfl, hrow, hv⟩
    rw [dif_pos h]
    have inj : ∀ (f : ℕ → ℝ) (n : ℕ), (∀ i j, i < j → j < n → f i < f j) → ∀ i j, i < n → j < n → f i = f j → i = j := by
      intro f n hf i j hi hj he
      rcases lt_trichotomy i j with h | h | h
      · exact absurd he (hf i j h hj).ne
      · exact h
      · exact absurd he.symm (hf j i h hi).ne
    have key : ∀ i' j' row' w, i' < nx ∧ j' < ny ∧ x i' = x i ∧ y j' = y j ∧ z[i']? = some row' ∧ row'[j']? = some w →
        w = v := by
      rintro i' j' row' w ⟨a1, a2, a3, a4, a5, a6⟩
      obtain rfl := inj x nx hx _ _ a1 hi a3
      obtain rfl := inj y ny hy _ _ a2 hj a4
      rw [hrow] at a5
      cases Option.some.inj a5
      rw [hv] at a6
      exact (Option.some.inj a6).symm
    exact key _ _ _ _ h.choose_spec.choose_spec.choose_spec.choose_spec

/-- Non-vacuity of `C39_interpolates`: the default grid, at its node `e = 33/99 = 1/3`, `x = 1`. -/
example (rs : RootScalar) : ∃ f, fastSeparatrix rs exampleSpline (9 / 10) (1 / 100) = .ok f
    ∧ separatrix rs (9 / 10) (1 / 3) 1 = .ok (f (1 / 3) 1) := by
  obtain ⟨f, hf, h⟩ := C39_interpolates rs exampleSpline (9 / 10) (1 / 100) (by norm_num) (by norm_num) (by norm_num)
    (by norm_num)
  refine ⟨f, hf, ?_⟩
  have := h 33 199 (by norm_num) (by norm_num)
  norm_num at this
  simpa using this

/-- **C03 (`KerrSpacetime`).** The methods of the spacetime object are the module functions, and its horizon radii
are the two zeros of `Δ`. -/
theorem C03_spacetime_object (rs : RootScalar) (a : ℝ) (M : Option ℝ) (ha : |a| < 1) :
    (∀ e x, (mkKerrSpacetime a M).separatrix rs e x = separatrix rs a e x)
    ∧ (∀ p e x, (mkKerrSpacetime a M).isStable rs p e x = isStable rs a p e x)
    ∧ ∀ r, Spec.Delta a r = 0 ↔ r = (mkKerrSpacetime a M).innerHorizon ∨ r = (mkKerrSpacetime a M).outerHorizon := by
  refine ⟨fun _ _ => rfl, fun _ _ _ => rfl, fun r => ?_⟩
  have h1 : 0 ≤ 1 - a ^ 2 := by
    have := sq_abs a
    have := abs_nonneg a
    nlinarith
  simp only [mkKerrSpacetime, npSqrt, not_lt.mpr h1, if_false]
  have hs := Real.sq_sqrt h1
  generalize √(1 - a ^ 2) = s at *
  have : Spec.Delta a r = (r - (1 - s)) * (r - (1 + s)) := by unfold Spec.Delta; linear_combination hs
  rw [this, mul_eq_zero, sub_eq_zero, sub_eq_zero]

end KGP
