import Verif.Props.EnergyOrder
import Verif.Props.ConstantsContinuity
import Mathlib.Analysis.SpecialFunctions.Sqrt

/-!
# C72: the constants of motion are analytic functions of the orbital parameters

For `e < 1` the values of `energy`, `angular_momentum` and `carter_constant` are those of one function of
`(a, p, e, x)` that is analytic (in particular infinitely often differentiable) at every accepted point.
-/

namespace KGP

open Classical Real Filter Topology
open scoped ContDiff

namespace Form

lemma E2_contDiffAt {v₀ : ℝ × ℝ × ℝ × ℝ}
    (h : Schmidt.WS v₀.2.1 (1 - v₀.2.2.1 ^ 2) (v₀.1 ^ 2) (1 - v₀.2.2.2 ^ 2) ≠ 0)
    (hq : Schmidt.TS v₀.2.1 (1 - v₀.2.2.1 ^ 2) (v₀.1 ^ 2) (1 - v₀.2.2.2 ^ 2) ^ 3 * v₀.2.1
      * DDS v₀.2.1 (1 - v₀.2.2.1 ^ 2) (v₀.1 ^ 2) * SSS v₀.2.1 (1 - v₀.2.2.1 ^ 2) (v₀.1 ^ 2) (1 - v₀.2.2.2 ^ 2) ≠ 0) :
    ContDiffAt ℝ ω (fun v : ℝ × ℝ × ℝ × ℝ => E2 v.1 v.2.1 v.2.2.1 v.2.2.2) v₀ := by
  unfold E2
  refine ContDiffAt.div (ContDiffAt.sub ?_ (ContDiffAt.mul (by fun_prop) (ContDiffAt.sqrt ?_ hq))) ?_ h
  · unfold Schmidt.NS Schmidt.kapS Schmidt.rhoS Schmidt.epsS Schmidt.TS
    fun_prop
  · unfold Schmidt.TS DDS SSS
    fun_prop
  · unfold Schmidt.WS Schmidt.rhoS Schmidt.etaS Schmidt.TS
    fun_prop

lemma Y_contDiffAt {r E : ℝ × ℝ × ℝ × ℝ → ℝ} {v₀ : ℝ × ℝ × ℝ × ℝ} (hr : ContDiffAt ℝ ω r v₀) (hE : ContDiffAt ℝ ω E v₀)
    (h : H (r v₀) v₀.1 v₀.2.2.2 ≠ 0)
    (hq : -d (r v₀) v₀.1 v₀.2.2.2 * H (r v₀) v₀.1 v₀.2.2.2
      + E v₀ ^ 2 * (4 * v₀.1 ^ 2 * r v₀ ^ 2 * v₀.2.2.2 ^ 2 + f (r v₀) v₀.1 v₀.2.2.2 * H (r v₀) v₀.1 v₀.2.2.2) ≠ 0) :
    ContDiffAt ℝ ω (fun v : ℝ × ℝ × ℝ × ℝ => Y (r v) v.1 v.2.2.2 (E v)) v₀ := by
  unfold Y
  refine ContDiffAt.div (ContDiffAt.add (by fun_prop) (ContDiffAt.sqrt ?_ hq)) ?_ h
  · unfold d H f
    fun_prop
  · unfold H
    fun_prop

lemma disc_eq (r a x E : ℝ) :
    -d r a x * H r a x + E ^ 2 * (4 * a ^ 2 * r ^ 2 * x ^ 2 + f r a x * H r a x)
      = (r ^ 2 - 2 * r + a ^ 2) * (r ^ 2 + a ^ 2 * (1 - x ^ 2))
        * (2 * r - (1 - E ^ 2) * (r ^ 2 + a ^ 2 * (1 - x ^ 2))) := by
  unfold d H f; ring

lemma disc_pos {a x E L Q r s r3 r4 : ℝ} (hA : a ^ 2 < 1) (hx : x ^ 2 ≤ 1) (hE0 : 0 < E) (hE1 : E < 1)
    (hs : 1 + √(1 - a ^ 2) < s) (hr : 1 + √(1 - a ^ 2) < r) (h3 : 0 ≤ r3) (h4 : 0 ≤ r4)
    (hR : Spec.RadialRoots a E L Q r s r3 r4) :
    0 < (r ^ 2 - 2 * r + a ^ 2) * (r ^ 2 + a ^ 2 * (1 - x ^ 2))
        * (2 * r - (1 - E ^ 2) * (r ^ 2 + a ^ 2 * (1 - x ^ 2))) := by
  obtain ⟨v1, -⟩ := RadialRoots.vieta hR
  have hsn := Real.sqrt_nonneg (1 - a ^ 2)
  have hsq := Real.sq_sqrt (show 0 ≤ 1 - a ^ 2 by linarith)
  have h1 : 0 < r ^ 2 - 2 * r + a ^ 2 := by nlinarith
  have hw : 0 ≤ a ^ 2 * (1 - x ^ 2) := mul_nonneg (sq_nonneg a) (by linarith)
  have hw1 : a ^ 2 * (1 - x ^ 2) < 1 := by nlinarith [mul_nonneg (sq_nonneg a) (sq_nonneg x)]
  have hβ : 0 < 1 - E ^ 2 := by nlinarith
  have hs1 : 1 < s := by linarith
  have hr1 : 1 < r := by linarith
  have k1 : 0 ≤ r * r3 := mul_nonneg (by linarith) h3
  have k2 : 0 ≤ r * r4 := mul_nonneg (by linarith) h4
  have k3 : 1 < r * s := by nlinarith
  have e1 : 2 * r - (1 - E ^ 2) * (r ^ 2 + a ^ 2 * (1 - x ^ 2))
      = (1 - E ^ 2) * (r * s + r * r3 + r * r4 - a ^ 2 * (1 - x ^ 2)) := by
    linear_combination (-r) * v1
  rw [e1]
  have : 0 < r ^ 2 + a ^ 2 * (1 - x ^ 2) := by positivity
  exact mul_pos (mul_pos h1 this) (mul_pos hβ (by linarith))

lemma DDS_eq {p e a : ℝ} (h1 : 1 - e ≠ 0) (h2 : 1 + e ≠ 0) :
    DDS p (1 - e ^ 2) (a ^ 2) = (1 - e ^ 2) ^ 2 * (((p / (1 - e)) ^ 2 - 2 * (p / (1 - e)) + a ^ 2)
      * ((p / (1 + e)) ^ 2 - 2 * (p / (1 + e)) + a ^ 2)) := by
  unfold DDS
  rw [show 1 - e ^ 2 = (1 - e) * (1 + e) by ring]
  field_simp
  ring

lemma SSS_eq {p e a w : ℝ} (h1 : 1 - e ≠ 0) (h2 : 1 + e ≠ 0) :
    SSS p (1 - e ^ 2) (a ^ 2) w = (1 - e ^ 2) ^ 2 * (((p / (1 - e)) ^ 2 + a ^ 2 * w) * ((p / (1 + e)) ^ 2 + a ^ 2 * w)) := by
  unfold SSS
  rw [show 1 - e ^ 2 = (1 - e) * (1 + e) by ring]
  field_simp
  ring

end Form

/-- The function of C72. -/
noncomputable def constForm (v : ℝ × ℝ × ℝ × ℝ) : Consts :=
  Form.consts v.1 v.2.2.2 √(Form.E2 v.1 v.2.1 v.2.2.1 v.2.2.2)
    (Form.Y (v.2.1 / (1 - v.2.2.1)) v.1 v.2.2.2 √(Form.E2 v.1 v.2.1 v.2.2.1 v.2.2.2))

lemma constForm_spec (rs : RootScalar) {a p e x : ℝ} (hb : Spec.BoundOrbit rs a p e x) (ha : 0 ≤ a) (he1 : e < 1)
    (hd : 0 < x → p ≤ 4 → Spec.DivisorsNonzero a p e x) :
    constantsOfMotion rs a p e x = .ok (constForm (a, p, e, x)) ∧ ContDiffAt ℝ ω constForm (a, p, e, x) := by
  obtain ⟨E, L, Q, hc, hst⟩ := constants_stable hb ha he1 hd
  obtain ⟨ha1, ⟨he, -⟩, hxa, s, hs, hsp⟩ := id hb
  have hx2 : x ^ 2 ≤ 1 := by rw [← sq_abs]; nlinarith [abs_nonneg x]
  rw [abs_of_nonneg ha] at ha1 hs
  have hX : Spec.signedX a x = x := by unfold Spec.signedX; rw [if_neg (by linarith)]
  rw [hX] at hs
  have hA : a ^ 2 < 1 := by nlinarith
  obtain ⟨hhor, hE0, hE1, -, hQ, hZ, r3, r4, hR, h43, h32⟩ := hst
  obtain ⟨g3, g4, -, hpe, h21, -⟩ := stable_geom hA he he1 hx2 hhor (by nlinarith) hQ hZ hR h43 h32
  have hm : 0 < 1 - e := by linarith
  have hpl : 0 < 1 + e := by linarith
  have hp0 : 0 < p := by linarith
  have hl : 0 < 1 - e ^ 2 := by nlinarith
  have hx' := abs_le.mp hxa
  -- polar and retrograde orbits have `p > 4`
  have h4x : x ≤ 0 → 4 < p := by
    intro h
    rcases eq_or_lt_of_le h with h | h
    · obtain ⟨s', hs', hval⟩ := C15_separatrix_returns rs a e x ha ha1 he he1.le hx'.1 hx'.2
      obtain rfl : s = s' := Except.ok.inj (hs.symm.trans hs')
      have hpl := polarLo_bounds.1
      by_cases h0 : a = 0
      · have := hval.zero h0; linarith
      · have := hval.polar h0 h
        unfold polarLo at hpl
        linarith [this.2.1]
    · linarith [retrograde_bound hb (by rw [hX]; exact h)]
  have hval : pureConsts a p e x = constForm (a, p, e, x) := by
    by_cases hx0 : x = 0
    · subst hx0
      exact Form.pure_polar (h4x le_rfl) hA.le he he1
    · exact Form.pure_generic ha hp0 he he1 hx0 hx2
  have hpure : constantsOfMotion rs a p e x = .ok (pureConsts a p e x) := by
    have := constantsOfMotion_of_bound hb
    rw [this]
    simp only [sa_of_nonneg ha, sx_of_nonneg ha]
  refine ⟨by rw [hpure, hval], ?_⟩
  -- the divisors
  have hreg : Schmidt.WS p (1 - e ^ 2) (a ^ 2) (1 - x ^ 2) ≠ 0 ∧ Form.H (p / (1 - e)) a x ≠ 0 := by
    rcases lt_or_ge 4 p with h4 | h4
    · refine ⟨(Form.rhoS_pos' h4 hA.le he he1.le hx2).2.2.2.ne', (Form.H_pos ?_ hx2).ne'⟩
      rw [lt_div_iff₀ hm]; linarith
    · have hx0 : 0 < x := by by_contra h; linarith [h4x (not_lt.mp h)]
      have hdiv := hd hx0 h4
      rw [divisors_iff, abs_of_nonneg ha, hX] at hdiv
      obtain ⟨k1, k2⟩ := (Schmidt.formulas_eq hp0 he he1 hx0.ne' hx2 rfl rfl).2.2.mp hdiv
      have hu : p / (1 - e) + p / (1 + e) = 2 * p / (1 - e ^ 2) := by
        have : (1 - e ^ 2) = (1 - e) * (1 + e) := by ring
        rw [this]; field_simp; ring
      have hv : p / (1 - e) * (p / (1 + e)) = p ^ 2 / (1 - e ^ 2) := by
        have : (1 - e ^ 2) = (1 - e) * (1 + e) := by ring
        rw [this]; field_simp
      obtain ⟨-, -, -, -, -, -, s7, -⟩ := Schmidt.scale (p := p) (A := a ^ 2) (w := 1 - x ^ 2) hl.ne'
      rw [hu, hv, s7] at k1
      rw [Form.coeff_h hx2 hx0.ne'] at k2
      exact ⟨right_ne_zero_of_mul k1, fun h => k2 (by rw [h, zero_div])⟩
  have hsn := Real.sqrt_nonneg (1 - a ^ 2)
  have hsq := Real.sq_sqrt (show 0 ≤ 1 - a ^ 2 by linarith)
  have hDel : ∀ r, 1 + √(1 - a ^ 2) < r → 0 < r ^ 2 - 2 * r + a ^ 2 := fun r hr => by nlinarith
  have hr1 : 1 + √(1 - a ^ 2) < p / (1 - e) := lt_of_lt_of_le hhor h21
  have hw : 0 ≤ a ^ 2 * (1 - x ^ 2) := mul_nonneg (sq_nonneg a) (by linarith)
  have hw1 : a ^ 2 * (1 - x ^ 2) < 1 := by nlinarith [mul_nonneg (sq_nonneg a) (sq_nonneg x)]
  -- the energy
  have hEE : √(Form.E2 a p e x) = E := by
    have := Except.ok.inj (hc.symm.trans hpure)
    rw [hval] at this
    exact (congrArg Prod.fst this).symm
  have hE2 : Form.E2 a p e x ≠ 0 := by
    intro h
    rw [h, Real.sqrt_zero] at hEE
    linarith
  have hT : 0 < Schmidt.TS p (1 - e ^ 2) (a ^ 2) (1 - x ^ 2) := by
    unfold Schmidt.TS
    have : a ^ 2 * (1 - x ^ 2) * (1 - e ^ 2) ≤ a ^ 2 * (1 - x ^ 2) := by nlinarith [mul_nonneg hw (sq_nonneg e)]
    nlinarith
  have hDD : 0 < Form.DDS p (1 - e ^ 2) (a ^ 2) := by
    rw [Form.DDS_eq hm.ne' hpl.ne']
    exact mul_pos (by positivity) (mul_pos (hDel _ hr1) (hDel _ hhor))
  have hSS : 0 < Form.SSS p (1 - e ^ 2) (a ^ 2) (1 - x ^ 2) := by
    rw [Form.SSS_eq hm.ne' hpl.ne']
    have : 0 < p / (1 - e) := by positivity
    have : 0 < p / (1 + e) := by positivity
    positivity
  have cE2 := Form.E2_contDiffAt (v₀ := (a, p, e, x)) hreg.1 (by
    simp only
    exact (mul_pos (mul_pos (mul_pos (pow_pos hT 3) hp0) hDD) hSS).ne')
  have cE := cE2.sqrt hE2
  have cr : ContDiffAt ℝ ω (fun v : ℝ × ℝ × ℝ × ℝ => v.2.1 / (1 - v.2.2.1)) (a, p, e, x) :=
    ContDiffAt.div (by fun_prop) (by fun_prop) hm.ne'
  have cY := Form.Y_contDiffAt cr cE hreg.2 (by
    simp only [Form.disc_eq, hEE]
    exact (Form.disc_pos hA hx2 hE0 hE1 hhor hr1 (by linarith) g4 hR).ne')
  unfold constForm Form.consts
  refine ContDiffAt.prodMk cE (ContDiffAt.prodMk ?_ ?_)
  · exact ContDiffAt.mul (by fun_prop) cY
  · fun_prop

/-- **C72.** There is one function of `(a, p, e, x)`, analytic at every accepted point with `a ≥ 0` and `e < 1`, whose
values `constants_of_motion` returns.  The polar, circular, equatorial and Schwarzschild cases, which the code computes
with other formulas, are points of the same analytic function. -/
theorem C72_constants_analytic :
    ∃ F : ℝ × ℝ × ℝ × ℝ → ℝ × ℝ × ℝ, ∀ (rs : RootScalar) (a p e x : ℝ), Spec.BoundOrbit rs a p e x → 0 ≤ a → e < 1 →
      (0 < x → p ≤ 4 → Spec.DivisorsNonzero a p e x) →
      constantsOfMotion rs a p e x = .ok (F (a, p, e, x)) ∧ ContDiffAt ℝ ω F (a, p, e, x) :=
  ⟨constForm, fun rs _ _ _ _ hb ha he1 hd => constForm_spec rs hb ha he1 hd⟩

/-- **C72.** Along a differentiable family of accepted orbits the returned constants are differentiable. -/
theorem C72_constants_derivative (rs : RootScalar) (s₀ : ℝ) (a p e x E L Q : ℝ → ℝ)
    (hda : DifferentiableAt ℝ a s₀) (hp : DifferentiableAt ℝ p s₀) (he : DifferentiableAt ℝ e s₀)
    (hx : DifferentiableAt ℝ x s₀)
    (horb : ∀ᶠ s in 𝓝 s₀, Spec.BoundOrbit rs (a s) (p s) (e s) (x s) ∧ 0 ≤ a s
      ∧ (0 < x s → p s ≤ 4 → Spec.DivisorsNonzero (a s) (p s) (e s) (x s))
      ∧ constantsOfMotion rs (a s) (p s) (e s) (x s) = .ok (E s, L s, Q s))
    (he1 : e s₀ < 1) :
    DifferentiableAt ℝ E s₀ ∧ DifferentiableAt ℝ L s₀ ∧ DifferentiableAt ℝ Q s₀ := by
  have heq : ∀ᶠ s in 𝓝 s₀, (E s, L s, Q s) = constForm (a s, p s, e s, x s) := by
    filter_upwards [horb, he.continuousAt.eventually_lt continuousAt_const he1] with s hs hes
    exact Except.ok.inj (hs.2.2.2.symm.trans (constForm_spec rs hs.1 hs.2.1 hes hs.2.2.1).1)
  obtain ⟨hb, ha, hd, -⟩ := horb.self_of_nhds
  have hF := (constForm_spec rs hb ha he1 hd).2.differentiableAt (by simp)
  have hc : DifferentiableAt ℝ (fun s => (a s, p s, e s, x s)) s₀ := hda.prodMk (hp.prodMk (he.prodMk hx))
  have hG : DifferentiableAt ℝ (fun s => (E s, L s, Q s)) s₀ :=
    (DifferentiableAt.fun_comp' s₀ (f := fun s => (a s, p s, e s, x s)) (g := constForm) hF hc).congr_of_eventuallyEq heq
  exact ⟨hG.fst, hG.snd.fst, hG.snd.snd⟩

/-- The hypotheses of C72 are met: by a generic orbit, a circular one and a polar one. -/
example (rs : RootScalar) : (Spec.BoundOrbit rs (9 / 10) 13 (1 / 2) (1 / 2) ∧ ((0:ℝ) < 1 / 2 → (13:ℝ) ≤ 4 →
      Spec.DivisorsNonzero (9 / 10) 13 (1 / 2) (1 / 2)))
    ∧ Spec.BoundOrbit rs (9 / 10) 13 0 (-1) ∧ Spec.BoundOrbit rs (9 / 10) 13 (1 / 2) 0 := by
  refine ⟨⟨?_, fun _ h => absurd h (by norm_num)⟩, ?_, ?_⟩ <;>
    exact C11_accepts_wide _ _ _ _ _ (by rw [abs_lt]; norm_num) (by norm_num) (by norm_num)
      (by rw [abs_le]; norm_num) (by norm_num)

/-- and the hypotheses of the second theorem by a family in which all four parameters vary -/
example (rs : RootScalar) : ∃ E L Q : ℝ → ℝ, ∀ᶠ s : ℝ in 𝓝 0,
    Spec.BoundOrbit rs (1 / 2 + s) (13 + s) (1 / 2 - s) (1 / 2 + 2 * s) ∧ 0 ≤ 1 / 2 + s
      ∧ (0 < 1 / 2 + 2 * s → 13 + s ≤ 4 → Spec.DivisorsNonzero (1 / 2 + s) (13 + s) (1 / 2 - s) (1 / 2 + 2 * s))
      ∧ constantsOfMotion rs (1 / 2 + s) (13 + s) (1 / 2 - s) (1 / 2 + 2 * s) = .ok (E s, L s, Q s) := by
  refine ⟨fun s => (constForm (1 / 2 + s, 13 + s, 1 / 2 - s, 1 / 2 + 2 * s)).1,
    fun s => (constForm (1 / 2 + s, 13 + s, 1 / 2 - s, 1 / 2 + 2 * s)).2.1,
    fun s => (constForm (1 / 2 + s, 13 + s, 1 / 2 - s, 1 / 2 + 2 * s)).2.2, ?_⟩
  filter_upwards [Ioo_mem_nhds (show (-1 / 10 : ℝ) < 0 by norm_num) (show (0:ℝ) < 1 / 10 by norm_num)] with s hs
  obtain ⟨h1, h2⟩ := hs
  have hb : Spec.BoundOrbit rs (1 / 2 + s) (13 + s) (1 / 2 - s) (1 / 2 + 2 * s) :=
    C11_accepts_wide _ _ _ _ _ (by rw [abs_lt]; constructor <;> linarith) (by linarith) (by linarith)
      (by rw [abs_le]; constructor <;> linarith) (by linarith)
  have hd : 0 < 1 / 2 + 2 * s → 13 + s ≤ 4 → Spec.DivisorsNonzero (1 / 2 + s) (13 + s) (1 / 2 - s) (1 / 2 + 2 * s) :=
    fun _ h => absurd h (by linarith)
  exact ⟨hb, by linarith, hd, (constForm_spec rs hb (by linarith) (by linarith) hd).1⟩

end KGP
