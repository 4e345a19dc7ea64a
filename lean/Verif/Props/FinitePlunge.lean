import Verif.Lemmas.FinitePlungeExc

/-!
# C77: exactly where the trajectory of a complex-root plunge is a number
-/

namespace KGP

open Classical Real

/-- Neither horizon is a root of the radial potential, or divides `[r1, r2]` in the ratio of the distances of `r1`, `r2` to
the complex roots `u ± iv`. -/
def Spec.HorizonRegular (a E L r1 r2 u v : ℝ) : Prop := ∀ rh, Spec.Delta a rh = 0 →
  E * (rh ^ 2 + a ^ 2) ≠ a * L ∧ ((r2 - u) ^ 2 + v ^ 2) * (rh - r1) ^ 2 ≠ ((r1 - u) ^ 2 + v ^ 2) * (r2 - rh) ^ 2

/-- `r` is not a horizon and not the mirror image of one (see C47). -/
def Spec.RadiusRegular (a r1 r2 u v r : ℝ) : Prop := ∀ rh, Spec.Delta a rh = 0 →
  r ≠ rh ∧ ((r2 - u) ^ 2 + v ^ 2) * (r - r1) * (rh - r1) ≠ ((r1 - u) ^ 2 + v ^ 2) * (r2 - r) * (r2 - rh)

/-- the two horizons -/
lemma delta_zero_iff {a rh : ℝ} (ha1 : a ^ 2 < 1) :
    Spec.Delta a rh = 0 ↔ rh = 1 + √(1 - a ^ 2) ∨ rh = 1 - √(1 - a ^ 2) := by
  have hsq : √(1 - a ^ 2) ^ 2 = 1 - a ^ 2 := Real.sq_sqrt (by linarith)
  have : Spec.Delta a rh = (rh - (1 + √(1 - a ^ 2))) * (rh - (1 - √(1 - a ^ 2))) := by
    unfold Spec.Delta
    linear_combination hsq
  rw [this, mul_eq_zero, sub_eq_zero, sub_eq_zero]

section
variable {a E L Q r1 r2 : ℝ} {r3 r4 : ℂ} {rh : ℝ}

/-- One horizon: what is needed at the phase `w`. -/
def horizonOk (a E L r1 r2 u v rh r : ℝ) : Prop :=
  (E * (rh ^ 2 + a ^ 2) ≠ a * L ∧ ((r2 - u) ^ 2 + v ^ 2) * (rh - r1) ^ 2 ≠ ((r1 - u) ^ 2 + v ^ 2) * (r2 - rh) ^ 2)
  ∧ r ≠ rh ∧ ((r2 - u) ^ 2 + v ^ 2) * (r - r1) * (rh - r1) ≠ ((r1 - u) ^ 2 + v ^ 2) * (r2 - r) * (r2 - rh)

lemma horizonOk_irh (hE : E ^ 2 < 1) (hr : plungingRadialRoots a E L Q = .ok (.cplx r1 r2 r3 r4))
    (hrh : Spec.Delta a rh = 0) {vA vB vrh vq vU : Fl} {q U : ℝ}
    (hA : vA = .fin (plungeA r2 r3.re r4.im)) (hB : vB = .fin (plungeB r1 r3.re r4.im))
    (hv : vrh = .fin rh) (hq : vq = .fin q) (hU : vU = .fin U) (hU0 : U ≠ 0) :
    (horizonOk a E L r1 r2 r3.re r4.im rh (rC r1 r2 r3.re r4.im (cos (amC (mC r1 r2 r3.re r4.im) q))) →
      plungeIrhN E r1 r2 vA vB vU vrh vq
        = .fin (plungeIrh E (plungeA r2 r3.re r4.im) (plungeB r1 r3.re r4.im) r1 r2 U rh q)) ∧
    (¬ horizonOk a E L r1 r2 r3.re r4.im rh (rC r1 r2 r3.re r4.im (cos (amC (mC r1 r2 r3.re r4.im) q))) →
      plungeIrhN E r1 r2 vA vB vU vrh vq = .exc) := by
  have H := cplxConfig_of hE hr
  have hb : 0 < 1 - E ^ 2 := by linarith
  by_cases hne : E * (rh ^ 2 + a ^ 2) = a * L
  · refine ⟨fun h => absurd hne h.1.1, fun _ => plungeIrhN_exc H hb hA hB hv hq ?_⟩
    have hR := (C30_complex a E L Q r1 r2 r3 r4 hE.ne hr).2.2.2 rh
    have h0 : Spec.R a E L Q rh = 0 := by
      unfold Spec.R
      rw [hrh, hne]; ring
    rw [h0] at hR
    have hq : (rh - r3.re) ^ 2 + r4.im ^ 2 ≠ 0 := by have := H.hv; positivity
    have h1 := (mul_eq_zero.mp hR.symm).resolve_right hq
    rcases mul_eq_zero.mp h1 with h2 | h2
    · right; left
      linarith [(mul_eq_zero.mp h2).resolve_left hb.ne']
    · left; linarith
  · obtain ⟨b1, b2⟩ := horizons_between hE hr hrh hne
    have d1 := plungeD_eq_one H b1 b2
    have d2 := plungeD_eq_sin H b1 b2 (amC (mC r1 r2 r3.re r4.im) q)
    constructor
    · rintro ⟨⟨-, h1⟩, h2, h3⟩
      refine plungeIrhN_fin H hb hA hB hv hq hU hU0 b1 b2 (fun h => h1 (d1.mp h)) fun h => ?_
      rcases d2.mp h with h | h
      · exact h2 h
      · exact h3 h
    · intro h
      refine plungeIrhN_exc H hb hA hB hv hq (Or.inr (Or.inr ⟨b1, b2, ?_⟩))
      rw [d1, d2]
      by_contra hc
      push Not at hc
      exact h ⟨⟨hne, hc.1⟩, hc.2.1, hc.2.2⟩

/-- both horizons -/
def phaseOk (a E L r1 r2 u v r : ℝ) : Prop := ∀ rh, Spec.Delta a rh = 0 → horizonOk a E L r1 r2 u v rh r

lemma phaseOk_iff {u v r : ℝ} : phaseOk a E L r1 r2 u v r
    ↔ Spec.HorizonRegular a E L r1 r2 u v ∧ Spec.RadiusRegular a r1 r2 u v r :=
  ⟨fun h => ⟨fun rh k => (h rh k).1, fun rh k => (h rh k).2⟩, fun h rh k => ⟨h.1 rh k, h.2 rh k⟩⟩

/-- The radial contributions to `φ` and `t` are numbers exactly at regular phases. -/
lemma plunge_radial_dichotomy (hE : E ^ 2 < 1) (ha1 : a ^ 2 < 1)
    (hr : plungingRadialRoots a E L Q = .ok (.cplx r1 r2 r3 r4))
    {vq vU : Fl} {q U : ℝ} (hq : vq = .fin q) (hU : vU = .fin U) (hU0 : U ≠ 0) :
    let S := plungingRadialSolutionsN a E L r1 r2 r3.re r4.im vU
    let S' := plungingRadialSolutionsCore a E L r1 r2 r3.re r4.im U
    let ok := phaseOk a E L r1 r2 r3.re r4.im (rC r1 r2 r3.re r4.im (cos (amC (mC r1 r2 r3.re r4.im) q)))
    (ok → S.dphi vq = .fin (S'.dphi q)) ∧ (¬ ok → S.dphi vq = .exc) ∧
    (ok ∧ r1 + r2 ≠ 2 * r3.re → S.dt vq = .fin (S'.dt q)) ∧ (¬ (ok ∧ r1 + r2 ≠ 2 * r3.re) → S.dt vq = .exc) := by
  intro S S' ok
  have H := cplxConfig_of hE hr
  have hb : 0 < 1 - E ^ 2 := by linarith
  have hA := plungeAN_fin (r2 := r2) (u := r3.re) (v := r4.im)
  have hB := plungeBN_fin (r1 := r1) (u := r3.re) (v := r4.im)
  have hsq : 0 ≤ 1 - a ^ 2 := by linarith
  have hs0 : 0 < √(1 - a ^ 2) := Real.sqrt_pos.mpr (by linarith)
  have hP : 1 + Fl.sqrt (1 - (a : Fl) ^ 2) = .fin (1 + √(1 - a ^ 2)) := by fl4
  have hM : 1 - Fl.sqrt (1 - (a : Fl) ^ 2) = .fin (1 - √(1 - a ^ 2)) := by fl4
  have dp : Spec.Delta a (1 + √(1 - a ^ 2)) = 0 := (delta_zero_iff ha1).mpr (Or.inl rfl)
  have dm : Spec.Delta a (1 - √(1 - a ^ 2)) = 0 := (delta_zero_iff ha1).mpr (Or.inr rfl)
  obtain ⟨p1, p2⟩ := horizonOk_irh hE hr dp hA hB hP hq hU hU0
  obtain ⟨m1, m2⟩ := horizonOk_irh hE hr dm hA hB hM hq hU hU0
  have g1 : 1 + √(1 - a ^ 2) - (1 - √(1 - a ^ 2)) ≠ 0 := by
    have : 1 + √(1 - a ^ 2) - (1 - √(1 - a ^ 2)) = 2 * √(1 - a ^ 2) := by ring
    rw [this]; positivity
  have g2 : 1 - √(1 - a ^ 2) - (1 + √(1 - a ^ 2)) ≠ 0 := by
    intro h; exact g1 (by linarith)
  have nok : ¬ ok → S.dphi vq = .exc ∧ S.dt vq = .exc := by
    intro h
    have : ¬ horizonOk a E L r1 r2 r3.re r4.im (1 + √(1 - a ^ 2)) (rC r1 r2 r3.re r4.im (cos (amC (mC r1 r2 r3.re r4.im) q)))
        ∨ ¬ horizonOk a E L r1 r2 r3.re r4.im (1 - √(1 - a ^ 2)) (rC r1 r2 r3.re r4.im (cos (amC (mC r1 r2 r3.re r4.im) q))) := by
      by_contra hc
      push Not at hc
      refine h fun rh hrh => ?_
      rcases (delta_zero_iff ha1).mp hrh with rfl | rfl
      · exact hc.1
      · exact hc.2
    rcases this with h | h
    · have := p2 h
      constructor <;> simp only [S, plungingRadialSolutionsN, this, Fl.mul_exc_right, Fl.add_exc_right]
    · have := m2 h
      constructor <;> simp only [S, plungingRadialSolutionsN, this, Fl.mul_exc_right, Fl.add_exc_left, Fl.add_exc_right]
  refine ⟨fun h => ?_, fun h => (nok h).1, fun ⟨h, hAB⟩ => ?_, fun h => ?_⟩
  · have e1 := p1 (h _ dp)
    have e2 := m1 (h _ dm)
    simp only [S, S', plungingRadialSolutionsN, plungingRadialSolutionsCore]
    change _ = Fl.fin (a * ((E * ((1 - √(1 - a ^ 2)) ^ 2 + a ^ 2) - a * L) / (1 - √(1 - a ^ 2) - (1 + √(1 - a ^ 2)))
        * plungeIrh E (plungeA r2 r3.re r4.im) (plungeB r1 r3.re r4.im) r1 r2 U (1 - √(1 - a ^ 2)) q
      + (E * ((1 + √(1 - a ^ 2)) ^ 2 + a ^ 2) - a * L) / (1 + √(1 - a ^ 2) - (1 - √(1 - a ^ 2)))
        * plungeIrh E (plungeA r2 r3.re r4.im) (plungeB r1 r3.re r4.im) r1 r2 U (1 + √(1 - a ^ 2)) q))
    rw [e1, e2]
    fl4
  · have e1 := p1 (h _ dp)
    have e2 := m1 (h _ dm)
    have h12 : r1 < r2 := by
      obtain ⟨k1, k2⟩ := horizons_between hE hr dp (h _ dp).1.1
      linarith
    obtain ⟨i1, i2⟩ := plungeIrN_fin H hb hA hB hq hU hU0 h12 hAB a
    simp only [S, S', plungingRadialSolutionsN, plungingRadialSolutionsCore]
    rw [e1, e2, i1, i2]
    simp only [plungingRadialIntegralsCore]
    fl4
  · by_cases hok : ok
    · have hAB : r1 + r2 = 2 * r3.re := by
        by_contra hc
        exact h ⟨hok, hc⟩
      have h0 : plungeA r2 r3.re r4.im - plungeB r1 r3.re r4.im = 0 := by
        have : plungeA r2 r3.re r4.im = plungeB r1 r3.re r4.im := by
          unfold plungeA plungeB
          congr 1
          linear_combination (r2 - r1) * hAB
        linarith
      have hz : plungeAN r2 r3.re r4.im - plungeBN r1 r3.re r4.im = .fin 0 := by
        rw [← h0]; fl4
      simp only [S, plungingRadialSolutionsN, plungeIrN_exc hz, Fl.mul_exc_left, Fl.mul_exc_right, Fl.add_exc_left,
        Fl.add_exc_right]
    · exact (nok hok).2

end

/-- **C77.** A plunge with two complex radial roots: the frequencies, `r` and `θ` are numbers at every Mino time; `φ` is a
number at a Mino time `λ` exactly when the horizons are regular and neither `r(λ)` nor the initial radius `r(0)` is a horizon
or the mirror image of one; `t` if moreover `r1 + r2 ≠ 2u`.  Where they are numbers they are those of `plunging_trajectory`
in real arithmetic. -/
theorem C77_plunge {a E L Q r1 r2 uR uTheta : ℝ} {r3 r4 : ℂ} {q : Phases} {T : Traj}
    (hE : E ^ 2 < 1) (hr : plungingRadialRoots a E L Q = .ok (.cplx r1 r2 r3 r4))
    (hu : plungingMinoFrequencies a E L Q = .ok (uR, uTheta)) (hT : plungingTrajectoryNat a E L Q q = .ok T)
    (ha : a ≠ 0) (ha1 : a ^ 2 < 1) (hQ : 0 ≤ Q) (hax : L ≠ 0 ∨ Q < a ^ 2 * (1 - E ^ 2)) :
    plungeUpsilonRN E r1 r2 r3.re r4.im = .fin uR ∧ plungeUpsilonThetaN a E L Q = .fin uTheta ∧
    ∃ TN, complexPlungeTrajectoryN a E L Q q = .ok TN ∧ ∀ lam,
      TN.r lam = .fin (T.r lam) ∧ TN.theta lam = .fin (T.theta lam) ∧
      (let ok := Spec.HorizonRegular a E L r1 r2 r3.re r4.im ∧ Spec.RadiusRegular a r1 r2 r3.re r4.im (T.r 0)
        ∧ Spec.RadiusRegular a r1 r2 r3.re r4.im (T.r lam)
      TN.phi lam = (if ok then .fin (T.phi lam) else .exc) ∧
      TN.t lam = (if ok ∧ r1 + r2 ≠ 2 * r3.re then .fin (T.t lam) else .exc)) := by
  have H := cplxConfig_of hE hr
  have P : PlungePolar a E L Q := ⟨ha, hE, hQ, hax⟩
  have hb : 0 < 1 - E ^ 2 := by linarith
  obtain ⟨h1, h2⟩ := cplx_calls q hr
  rw [h1, Except.ok.injEq, Prod.mk.injEq] at hu
  rw [h2, Except.ok.injEq] at hT
  obtain ⟨rfl, rfl⟩ := hu
  subst hT
  have hUR := plungeUpsilonRN_fin H hb
  have hUT := plungeUpsilonThetaN_fin P
  have hPS := plungingPolarSolutionsN_fin P
  refine ⟨hUR, hUT, assemblePlungeN (plungingRadialSolutionsN a E L r1 r2 r3.re r4.im (plungeUpsilonRN E r1 r2 r3.re r4.im))
    (plungingPolarSolutionsN a E L Q (plungeUpsilonThetaN a E L Q)) (plungeUpsilonRN E r1 r2 r3.re r4.im)
    (plungeUpsilonThetaN a E L Q) q, ?_, fun lam => ?_⟩
  · simp only [complexPlungeTrajectoryN, hr, bind, Except.bind, pure, Except.pure]
  have hU0 := (H.upsilon_pos hb).ne'
  rw [cplx_r H, cplx_r H]
  rw [mul_zero, zero_add]
  have hqr : plungeUpsilonRN E r1 r2 r3.re r4.im * (lam : Fl) + (q.qr : Fl)
      = .fin (plungeUpsilonRComplex E r1 r2 r3.re r4.im * lam + q.qr) := by fl4
  have h22 : (2:ℝ) ≠ 0 := two_ne_zero
  have hq0 : (q.qtheta : Fl) + (π : Fl) / 2 = .fin (q.qtheta + π / 2) := by fl4
  have hqt : plungeUpsilonThetaN a E L Q * (lam : Fl) + ((q.qtheta : Fl) + (π : Fl) / 2)
      = .fin (plungeUpsilonThetaComplex a E L Q * lam + (q.qtheta + π / 2)) := by fl4
  have D0 := plunge_radial_dichotomy hE ha1 hr (vq := .fin q.qr) rfl hUR hU0
  have D1 := plunge_radial_dichotomy hE ha1 hr hqr hUR hU0
  simp only [phaseOk_iff] at D0 D1
  obtain ⟨a1, a2, a3, a4⟩ := D0
  obtain ⟨b1, b2, b3, b4⟩ := D1
  have hpos := plungePosN_fin H (E := E) (a := a) (L := L) (vU := plungeUpsilonRN E r1 r2 r3.re r4.im)
    (U := plungeUpsilonRComplex E r1 r2 r3.re r4.im) hqr
  rw [cplx_pos_eq H] at hpos
  have p1 := hPS.dt _ _ hqt
  have p2 := hPS.dt _ _ hq0
  have p3 := hPS.dphi _ _ hqt
  have p4 := hPS.dphi _ _ hq0
  refine ⟨hpos, hPS.pos _ _ hqt, ?_, ?_⟩
  · split_ifs with h
    · have c1 := a1 ⟨h.1, h.2.1⟩
      have c2 := b1 ⟨h.1, h.2.2⟩
      simp only [assemblePlungeN, assemblePlunge, c1, c2, p3, p4]
      fl4
    · simp only [assemblePlungeN]
      by_cases hc : Spec.HorizonRegular a E L r1 r2 r3.re r4.im ∧ Spec.RadiusRegular a r1 r2 r3.re r4.im
          (rC r1 r2 r3.re r4.im (cos (amC (mC r1 r2 r3.re r4.im) q.qr)))
      · have := b2 fun k => h ⟨hc.1, hc.2, k.2⟩
        simp only [this, Fl.add_exc_left, Fl.sub_exc_left]
      · simp only [a2 hc, Fl.add_exc_left, Fl.sub_exc_right]
  · split_ifs with h
    · have c1 := a3 ⟨⟨h.1.1, h.1.2.1⟩, h.2⟩
      have c2 := b3 ⟨⟨h.1.1, h.1.2.2⟩, h.2⟩
      simp only [assemblePlungeN, assemblePlunge, c1, c2, p1, p2]
      fl4
    · simp only [assemblePlungeN]
      by_cases hc : (Spec.HorizonRegular a E L r1 r2 r3.re r4.im ∧ Spec.RadiusRegular a r1 r2 r3.re r4.im
          (rC r1 r2 r3.re r4.im (cos (amC (mC r1 r2 r3.re r4.im) q.qr)))) ∧ r1 + r2 ≠ 2 * r3.re
      · have := b4 fun k => h ⟨⟨hc.1.1, hc.1.2, k.1.2⟩, hc.2⟩
        simp only [this, Fl.add_exc_left, Fl.sub_exc_left]
      · simp only [a4 hc, Fl.add_exc_left, Fl.sub_exc_right]

/-- **C77 (geodesic).** Where `t` and `φ` are numbers they are so in a neighbourhood, and their derivatives are those of the
geodesic with the given constants: at such Mino times C47 is a statement about the values the program returns. -/
theorem C77_geodesic {a E L Q r1 r2 uR uTheta : ℝ} {r3 r4 : ℂ} {q : Phases} {T : Traj} {TN : TrajN}
    (hE : E ^ 2 < 1) (hr : plungingRadialRoots a E L Q = .ok (.cplx r1 r2 r3 r4))
    (hu : plungingMinoFrequencies a E L Q = .ok (uR, uTheta)) (hT : plungingTrajectoryNat a E L Q q = .ok T)
    (ha : a ≠ 0) (ha1 : a ^ 2 < 1) (hQ : 0 ≤ Q) (hax : L ≠ 0 ∨ Q < a ^ 2 * (1 - E ^ 2))
    (hTN : complexPlungeTrajectoryN a E L Q q = .ok TN) (lam : ℝ) (hfin : TN.t lam ≠ .exc) :
    (∀ᶠ l in nhds lam, TN.t l = .fin (T.t l) ∧ TN.r l = .fin (T.r l) ∧ TN.theta l = .fin (T.theta l)
      ∧ TN.phi l = .fin (T.phi l)) ∧
    HasDerivAt T.t (Spec.dtdlam a E L (T.r lam) (T.theta lam)) lam ∧
    HasDerivAt T.phi (Spec.dphidlam a E L (T.r lam) (T.theta lam)) lam := by
  obtain ⟨-, -, TN', hTN', h⟩ := C77_plunge hE hr hu hT ha ha1 hQ hax
  obtain rfl : TN' = TN := Except.ok.inj (hTN'.symm.trans hTN)
  have hk : (Spec.HorizonRegular a E L r1 r2 r3.re r4.im ∧ Spec.RadiusRegular a r1 r2 r3.re r4.im (T.r 0)
        ∧ Spec.RadiusRegular a r1 r2 r3.re r4.im (T.r lam)) ∧ r1 + r2 ≠ 2 * r3.re := by
    by_contra hc
    apply hfin
    rw [(h lam).2.2.2, if_neg hc]
  obtain ⟨⟨k1, k2, k3⟩, k4⟩ := hk
  refine ⟨?_, C47_plunge_time_azimuth hE hr hu hT ha ha1 hQ hax k4 (fun rh k => (k1 rh k).1) lam k3⟩
  have hcont : ContinuousAt T.r lam := (C31_radial_equation hE hr hu hT lam).2.2.2.continuousAt
  have hev : ∀ rh, Spec.Delta a rh = 0 → ∀ᶠ l in nhds lam, T.r l ≠ rh ∧
      ((r2 - r3.re) ^ 2 + r4.im ^ 2) * (T.r l - r1) * (rh - r1)
        ≠ ((r1 - r3.re) ^ 2 + r4.im ^ 2) * (r2 - T.r l) * (r2 - rh) := by
    intro rh k
    refine (hcont.eventually_ne (k3 rh k).1).and ?_
    exact ContinuousAt.eventually_ne
      (g := fun l => ((r2 - r3.re) ^ 2 + r4.im ^ 2) * (T.r l - r1) * (rh - r1)
        - ((r1 - r3.re) ^ 2 + r4.im ^ 2) * (r2 - T.r l) * (r2 - rh)) (by fun_prop)
      (sub_ne_zero.mpr (k3 rh k).2) |>.mono fun l hl => sub_ne_zero.mp hl
  have e1 := hev _ ((delta_zero_iff ha1).mpr (Or.inl rfl))
  have e2 := hev _ ((delta_zero_iff ha1).mpr (Or.inr rfl))
  filter_upwards [e1, e2] with l l1 l2
  have kl : Spec.RadiusRegular a r1 r2 r3.re r4.im (T.r l) := by
    intro rh k
    rcases (delta_zero_iff ha1).mp k with rfl | rfl
    · exact l1
    · exact l2
  obtain ⟨m1, m2, m3, m4⟩ := h l
  exact ⟨by rw [m4, if_pos ⟨⟨k1, k2, kl⟩, k4⟩], m1, m2, by rw [m3, if_pos ⟨k1, k2, kl⟩]⟩

/-- The four-velocity along any functions `r`, `θ` that are numbers. -/
lemma fourVelocityN_ite {a E L Q : ℝ} {T : Traj} {TN : TrajN} {q : Phases} {lam uR uTheta : ℝ} {vR vTheta : Fl}
    (hr : TN.r lam = .fin (T.r lam))
    (ht : TN.theta lam = .fin (T.theta lam)) (hR : vR = .fin uR) (hTh : vTheta = .fin uTheta)
    (hs : sin (T.theta lam) ≠ 0) :
    let V := fourVelocity a T (E, L, Q) uR uTheta q
    let VN := fourVelocityN a TN (.fin E, .fin L, .fin Q) vR vTheta q
    let S := Spec.Sigma a (T.r lam) (T.theta lam)
    let D := Spec.Delta a (T.r lam)
    VN.t lam = (if S ≠ 0 ∧ D ≠ 0 then .fin (V.t lam) else .exc)
      ∧ VN.r lam = (if S ≠ 0 then .fin (V.r lam) else .exc)
      ∧ VN.theta lam = (if S ≠ 0 then .fin (V.theta lam) else .exc)
      ∧ VN.phi lam = (if S ≠ 0 ∧ D ≠ 0 then .fin (V.phi lam) else .exc) := by
  intro V VN S D
  have eS : S = T.r lam ^ 2 + a ^ 2 * cos (T.theta lam) ^ 2 := rfl
  have eD : D = T.r lam ^ 2 - 2 * T.r lam + a ^ 2 := rfl
  have k3 : 1 - cos (T.theta lam) ^ 2 ≠ 0 := by
    rw [← Real.sin_sq]; exact pow_ne_zero 2 hs
  have k5 : ∀ y : ℝ, 0 ≤ |y| := abs_nonneg
  have hSN : TN.r lam ^ 2 + (a : Fl) ^ 2 * Fl.cos (TN.theta lam) ^ 2 = .fin S := by rw [eS]; fl
  have hDN : TN.r lam ^ 2 - 2 * TN.r lam + (a : Fl) ^ 2 = .fin D := by rw [eD]; fl
  by_cases hS : S = 0
  · rw [hS] at hSN
    have hSs : (T.r lam ^ 2 + a ^ 2 * cos (T.theta lam) ^ 2) * sin (T.theta lam) = 0 := by rw [← eS, hS, zero_mul]
    have hSsN : (TN.r lam ^ 2 + (a : Fl) ^ 2 * Fl.cos (TN.theta lam) ^ 2) * Fl.sin (TN.theta lam) = .fin 0 := by
      rw [← hSs]; fl
    rw [if_neg (fun h => h.1 hS), if_neg (fun h => h hS), if_neg (fun h => h hS), if_neg (fun h => h.1 hS)]
    refine ⟨?_, ?_, ?_, ?_⟩
    · simp only [VN, fourVelocityN, Fl.div_zero hSN, Fl.mul_exc_left]
    · simp only [VN, fourVelocityN, Fl.div_zero hSN]
    · simp only [VN, fourVelocityN, Fl.div_zero hSsN]
    · simp only [VN, fourVelocityN, Fl.div_zero hSN, Fl.mul_exc_left]
  have k1 : T.r lam ^ 2 + a ^ 2 * cos (T.theta lam) ^ 2 ≠ 0 := hS
  have k4 : (T.r lam ^ 2 + a ^ 2 * cos (T.theta lam) ^ 2) * sin (T.theta lam) ≠ 0 := mul_ne_zero k1 hs
  have part1 : VN.r lam = .fin (V.r lam) ∧ VN.theta lam = .fin (V.theta lam) := by
    constructor
    · simp only [V, VN, fourVelocityN, fourVelocity, fvR]
      fl
      all_goals exact k5 _
    · simp only [V, VN, fourVelocityN, fourVelocity, fvZ]
      fl
      all_goals exact k5 _
  rw [if_pos hS, if_pos hS]
  by_cases hD : D = 0
  · rw [hD] at hDN
    rw [if_neg (fun h => h.2 hD), if_neg (fun h => h.2 hD)]
    refine ⟨?_, part1.1, part1.2, ?_⟩
    · simp only [VN, fourVelocityN, Fl.div_zero hDN, Fl.mul_exc_left, Fl.sub_exc_left, Fl.add_exc_left, Fl.mul_exc_right]
    · simp only [VN, fourVelocityN, Fl.div_zero hDN, Fl.mul_exc_left, Fl.sub_exc_left, Fl.add_exc_left, Fl.mul_exc_right]
  have k2 : T.r lam ^ 2 - 2 * T.r lam + a ^ 2 ≠ 0 := hD
  rw [if_pos ⟨hS, hD⟩, if_pos ⟨hS, hD⟩]
  refine ⟨?_, part1.1, part1.2, ?_⟩
  · simp only [V, VN, fourVelocityN, fourVelocity]
    fl
  · simp only [V, VN, fourVelocityN, fourVelocity]
    fl

/-- **C77 (four-velocity).** Along such a plunge the analytic four-velocity is a number at every Mino time except on the
horizons (`t`, `φ` components) and on the ring singularity `Σ = 0` (all components). -/
theorem C77_four_velocity {a E L Q r1 r2 uR uTheta : ℝ} {r3 r4 : ℂ} {q : Phases} {T : Traj}
    (hE : E ^ 2 < 1) (hr : plungingRadialRoots a E L Q = .ok (.cplx r1 r2 r3 r4))
    (hu : plungingMinoFrequencies a E L Q = .ok (uR, uTheta)) (hT : plungingTrajectoryNat a E L Q q = .ok T)
    (ha : a ≠ 0) (ha1 : a ^ 2 < 1) (hQ : 0 ≤ Q) (hax : L ≠ 0 ∨ Q < a ^ 2 * (1 - E ^ 2)) :
    ∃ TN, complexPlungeTrajectoryN a E L Q q = .ok TN ∧ ∀ lam,
      let V := fourVelocity a T (E, L, Q) uR uTheta q
      let VN := fourVelocityN a TN (.fin E, .fin L, .fin Q) (plungeUpsilonRN E r1 r2 r3.re r4.im)
        (plungeUpsilonThetaN a E L Q) q
      let S := Spec.Sigma a (T.r lam) (T.theta lam)
      let D := Spec.Delta a (T.r lam)
      VN.t lam = (if S ≠ 0 ∧ D ≠ 0 then .fin (V.t lam) else .exc)
        ∧ VN.r lam = (if S ≠ 0 then .fin (V.r lam) else .exc)
        ∧ VN.theta lam = (if S ≠ 0 then .fin (V.theta lam) else .exc)
        ∧ VN.phi lam = (if S ≠ 0 ∧ D ≠ 0 then .fin (V.phi lam) else .exc) := by
  obtain ⟨h1, h2, TN, h3, h4⟩ := C77_plunge hE hr hu hT ha ha1 hQ hax
  refine ⟨TN, h3, fun lam => ?_⟩
  obtain ⟨k1, k2, -⟩ := h4 lam
  refine fourVelocityN_ite k1 k2 h1 h2 ?_
  have P : PlungePolar a E L Q := ⟨ha, hE, hQ, hax⟩
  obtain ⟨c1, c2⟩ := cplx_calls q hr
  rw [c1, Except.ok.injEq, Prod.mk.injEq] at hu
  rw [c2, Except.ok.injEq] at hT
  obtain ⟨rfl, rfl⟩ := hu
  subst hT
  simp only [assemblePlunge, P.pos_eq]
  obtain ⟨z0, z1, -, -⟩ := P.roots
  rw [Real.sin_arccos, mul_pow, Real.sq_sqrt z0]
  exact (Real.sqrt_pos.mpr (one_sub_pos z1 _)).ne'

/-- The hypotheses and the conditions hold for the plunge of `Verif.Props.Plunge`: started at the inner turning point, all
four coordinates are numbers at the outer one. -/
example : ∃ (TN : TrajN) (uR t r theta phi : ℝ),
    complexPlungeTrajectoryN (4 / 5) (√(66825 / 91777)) (4 / 5 * √(66825 / 91777)) (98 / 1873) ⟨0, 0, 0, 0⟩ = .ok TN ∧
    TN.t (π / uR) = .fin t ∧ TN.r (π / uR) = .fin r ∧ r = 7 ∧ TN.theta (π / uR) = .fin theta ∧
    TN.phi (π / uR) = .fin phi := by
  obtain ⟨r3, r4, hr, h3⟩ := exPlunge_roots
  obtain ⟨h1, h2⟩ := cplx_calls ⟨0, 0, 0, 0⟩ hr
  have hE : √(66825 / 91777) ^ 2 < (1 : ℝ) := by rw [exPlungeE]; norm_num
  have hE0 : 0 < √(66825 / 91777 : ℝ) := Real.sqrt_pos.mpr (by norm_num)
  obtain ⟨hu, -, hp0, hp1⟩ := C31_period hE hr h1 h2
  have hb : 0 < 1 - √(66825 / 91777) ^ 2 := by linarith
  have h7 := hp1 (π / plungeUpsilonRComplex (√(66825 / 91777)) (7 / 20) 7 r3.re r4.im) (by field_simp; simp)
  have h0 := hp0 0 (by simp)
  have hRR := (C30_complex _ _ _ _ _ _ r3 r4 hE.ne hr).2.2.2 0
  have hv2 : r4.im ^ 2 = 784 / 15595 - (49 / 15595) ^ 2 := by
    rw [exPlunge_R, Real.sq_sqrt (by norm_num : (0:ℝ) ≤ 784 / 15595 - (49 / 15595) ^ 2), h3] at hRR
    generalize 1 - √(66825 / 91777 : ℝ) ^ 2 = b at *
    have : b * (r4.im ^ 2 - (784 / 15595 - (49 / 15595) ^ 2)) = 0 := by linear_combination (20 / 49) * hRR
    linarith [(mul_eq_zero.mp this).resolve_left hb.ne']
  obtain ⟨-, -, TN, hTN, hall⟩ := C77_plunge hE hr h1 h2 (by norm_num) (by norm_num) (by norm_num) (Or.inl (by positivity))
  obtain ⟨k1, k2, k3, k4⟩ := hall (π / plungeUpsilonRComplex (√(66825 / 91777)) (7 / 20) 7 r3.re r4.im)
  have hor : ∀ rh, Spec.Delta (4 / 5) rh = 0 → rh = 2 / 5 ∨ rh = 8 / 5 := by
    intro rh hrh
    have h6 : (rh - 2 / 5) * (rh - 8 / 5) = 0 := by
      unfold Spec.Delta at hrh
      linear_combination hrh
    rcases mul_eq_zero.mp h6 with h | h
    · left; linarith
    · right; linarith
  have c1 : Spec.HorizonRegular (4 / 5) (√(66825 / 91777)) (4 / 5 * √(66825 / 91777)) (7 / 20) 7 r3.re r4.im := by
    intro rh hrh
    rw [h3, hv2]
    rcases hor rh hrh with rfl | rfl
    · exact ⟨by nlinarith, by norm_num⟩
    · exact ⟨by nlinarith, by norm_num⟩
  have c2 : Spec.RadiusRegular (4 / 5) (7 / 20) 7 r3.re r4.im (7 / 20) := by
    intro rh hrh
    rw [h3, hv2]
    rcases hor rh hrh with rfl | rfl <;> norm_num
  have c3 : Spec.RadiusRegular (4 / 5) (7 / 20) 7 r3.re r4.im 7 := by
    intro rh hrh
    rw [h3, hv2]
    rcases hor rh hrh with rfl | rfl <;> norm_num
  rw [h0, h7] at k3 k4
  rw [if_pos ⟨c1, c2, c3⟩] at k3
  rw [if_pos ⟨⟨c1, c2, c3⟩, by rw [h3]; norm_num⟩] at k4
  exact ⟨TN, _, _, _, _, _, hTN, k4, k1, h7, k2, k3⟩

end KGP
