import Verif.Lemmas.ConstantsForm
import Verif.Props.StableExact

/-!
# C57: the constants of motion depend continuously on the orbital parameters

`energy`, `angular_momentum` and `carter_constant` use different formulas for polar, circular, parabolic and generic
orbits (and Schwarzschild black holes make some of their determinants vanish).  The theorem says that nothing jumps
where one formula takes over from another.
-/

namespace KGP

open Classical Real Filter Topology

/-- The accepted parameters `(a, p, e, x)` with `a ≥ 0` at which the code's divisors do not vanish: that is a
condition only for `p ≤ 4`, where also `e < 1` is assumed. -/
def Spec.ConstantsDomain (rs : RootScalar) : Set (ℝ × ℝ × ℝ × ℝ) :=
  {v | Spec.BoundOrbit rs v.1 v.2.1 v.2.2.1 v.2.2.2 ∧ 0 ≤ v.1
    ∧ (v.2.1 ≤ 4 → v.2.2.1 < 1 ∧ Spec.DivisorsNonzero v.1 v.2.1 v.2.2.1 v.2.2.2)}

namespace Form

lemma E2_continuousAt {v₀ : ℝ × ℝ × ℝ × ℝ}
    (h : Schmidt.WS v₀.2.1 (1 - v₀.2.2.1 ^ 2) (v₀.1 ^ 2) (1 - v₀.2.2.2 ^ 2) ≠ 0) :
    ContinuousAt (fun v : ℝ × ℝ × ℝ × ℝ => E2 v.1 v.2.1 v.2.2.1 v.2.2.2) v₀ := by
  unfold E2
  refine ContinuousAt.div ?_ ?_ h
  · unfold Schmidt.NS Schmidt.kapS Schmidt.rhoS Schmidt.epsS Schmidt.TS DDS SSS
    fun_prop
  · unfold Schmidt.WS Schmidt.rhoS Schmidt.etaS Schmidt.TS
    fun_prop

lemma Y_continuousAt {r E : ℝ × ℝ × ℝ × ℝ → ℝ} {v₀ : ℝ × ℝ × ℝ × ℝ} (hr : ContinuousAt r v₀) (hE : ContinuousAt E v₀)
    (h : H (r v₀) v₀.1 v₀.2.2.2 ≠ 0) :
    ContinuousAt (fun v : ℝ × ℝ × ℝ × ℝ => Y (r v) v.1 v.2.2.2 (E v)) v₀ := by
  unfold Y
  refine ContinuousAt.div ?_ ?_ h
  · unfold d H f
    fun_prop
  · unfold H
    fun_prop

lemma consts_continuousAt {r : ℝ × ℝ × ℝ × ℝ → ℝ} {v₀ : ℝ × ℝ × ℝ × ℝ} (hr : ContinuousAt r v₀)
    (hW : Schmidt.WS v₀.2.1 (1 - v₀.2.2.1 ^ 2) (v₀.1 ^ 2) (1 - v₀.2.2.2 ^ 2) ≠ 0)
    (h : H (r v₀) v₀.1 v₀.2.2.2 ≠ 0) :
    ContinuousAt (fun v : ℝ × ℝ × ℝ × ℝ => consts v.1 v.2.2.2 √(E2 v.1 v.2.1 v.2.2.1 v.2.2.2)
      (Y (r v) v.1 v.2.2.2 √(E2 v.1 v.2.1 v.2.2.1 v.2.2.2))) v₀ := by
  have hE := (E2_continuousAt hW).sqrt
  have hY := Y_continuousAt hr hE h
  unfold consts
  refine hE.prodMk (ContinuousAt.prodMk ?_ ?_)
  · fun_prop
  · fun_prop

end Form

/-- **C57.** `constants_of_motion` is a continuous function of `(a, p, e, x)`. -/
theorem C57_constants_continuous (rs : RootScalar) :
    ∃ F : ℝ × ℝ × ℝ × ℝ → Consts, ContinuousOn F (Spec.ConstantsDomain rs)
      ∧ ∀ v ∈ Spec.ConstantsDomain rs, constantsOfMotion rs v.1 v.2.1 v.2.2.1 v.2.2.2 = .ok (F v) := by
  refine ⟨fun v => pureConsts v.1 v.2.1 v.2.2.1 v.2.2.2, ?_, ?_⟩
  · rintro ⟨a₀, p₀, e₀, x₀⟩ hv₀
    have dom : ∀ v ∈ Spec.ConstantsDomain rs, v.1 < 1 ∧ 0 ≤ v.2.2.1 ∧ v.2.2.1 ≤ 1 ∧ v.2.2.2 ^ 2 ≤ 1
        ∧ v.1 ^ 2 ≤ 1 ∧ (v.1 = 0 ∨ v.2.2.2 = 0 → 4 < v.2.1) ∧ 1 ≤ v.2.1 := by
      rintro ⟨a, p, e, x⟩ ⟨⟨ha1, ⟨he, he1⟩, hx, s, hs, hsp⟩, ha, -⟩
      simp only at *
      have hx2 : x ^ 2 ≤ 1 := by rw [← sq_abs]; nlinarith [abs_nonneg x]
      rw [abs_of_nonneg ha] at ha1 hs
      have hX : Spec.signedX a x = x := by unfold Spec.signedX; rw [if_neg (by linarith)]
      rw [hX] at hs
      have hx' := abs_le.mp hx
      obtain ⟨s', hs', hval⟩ := C15_separatrix_returns rs a e x ha ha1 he he1 hx'.1 hx'.2
      obtain rfl : s = s' := Except.ok.inj (hs.symm.trans hs')
      have hpl := polarLo_bounds.1
      refine ⟨ha1, he, he1, hx2, by nlinarith, ?_, ?_⟩
      · intro h
        by_cases h0 : a = 0
        · have := hval.zero h0; linarith
        · have := hval.polar h0 (h.resolve_left h0)
          unfold polarLo at hpl
          linarith [this.2.1]
      · by_cases h0 : a = 0
        · have := hval.zero h0; linarith
        · rcases lt_trichotomy x 0 with h | h | h
          · have hb : Spec.BoundOrbit rs a p e x := ⟨by rwa [abs_of_nonneg ha], ⟨he, he1⟩, hx, s, by
              rw [abs_of_nonneg ha, hX]; exact hs, hsp⟩
            linarith [retrograde_bound hb (by rw [hX]; exact h)]
          · have := hval.polar h0 h
            unfold polarLo at hpl
            linarith [this.2.1]
          · linarith [separatrix_ge hval h0 h hx'.2]
    obtain ⟨ha1₀, he₀, he1₀, hx₀, hA₀, hz₀, hp₀⟩ := dom _ hv₀
    have ha₀ : 0 ≤ a₀ := hv₀.2.1
    simp only at ha1₀ he₀ he1₀ hx₀ hA₀ hz₀ hp₀
    have hpl : 0 < 1 + e₀ := by linarith
    by_cases h1 : e₀ < 1
    · have hm : 0 < 1 - e₀ := by linarith
      have hreg : Schmidt.WS p₀ (1 - e₀ ^ 2) (a₀ ^ 2) (1 - x₀ ^ 2) ≠ 0 ∧ Form.H (p₀ / (1 - e₀)) a₀ x₀ ≠ 0 := by
        rcases lt_or_ge 4 p₀ with h4 | h4
        · refine ⟨(Form.rhoS_pos' h4 hA₀ he₀ he1₀ hx₀).2.2.2.ne', (Form.H_pos ?_ hx₀).ne'⟩
          rw [lt_div_iff₀ hm]; linarith
        · have hx0 : x₀ ≠ 0 := fun h => absurd (hz₀ (.inr h)) (by linarith)
          obtain ⟨-, hdiv⟩ := hv₀.2.2 h4
          simp only [] at hdiv
          have hX : Spec.signedX a₀ x₀ = x₀ := by unfold Spec.signedX; rw [if_neg (by linarith)]
          rw [divisors_iff, abs_of_nonneg ha₀, hX] at hdiv
          have hl : 0 < 1 - e₀ ^ 2 := by nlinarith
          obtain ⟨k1, k2⟩ := (Schmidt.formulas_eq (by linarith) he₀ h1 hx0 hx₀ rfl rfl).2.2.mp hdiv
          have hu : p₀ / (1 - e₀) + p₀ / (1 + e₀) = 2 * p₀ / (1 - e₀ ^ 2) := by
            have : (1 - e₀ ^ 2) = (1 - e₀) * (1 + e₀) := by ring
            rw [this]; field_simp; ring
          have hv : p₀ / (1 - e₀) * (p₀ / (1 + e₀)) = p₀ ^ 2 / (1 - e₀ ^ 2) := by
            have : (1 - e₀ ^ 2) = (1 - e₀) * (1 + e₀) := by ring
            rw [this]; field_simp
          obtain ⟨-, -, -, -, -, -, s7, -⟩ := Schmidt.scale (p := p₀) (A := a₀ ^ 2) (w := 1 - x₀ ^ 2) hl.ne'
          rw [hu, hv, s7] at k1
          rw [Form.coeff_h hx₀ hx0] at k2
          exact ⟨right_ne_zero_of_mul k1, fun h => k2 (by rw [h, zero_div])⟩
      have hr : ContinuousAt (fun v : ℝ × ℝ × ℝ × ℝ => v.2.1 / (1 - v.2.2.1)) (a₀, p₀, e₀, x₀) :=
        ContinuousAt.div (by fun_prop) (by fun_prop) hm.ne'
      refine (Form.consts_continuousAt hr hreg.1 hreg.2).continuousWithinAt.congr_of_eventuallyEq ?_ ?_
      · have : ∀ᶠ v : ℝ × ℝ × ℝ × ℝ in 𝓝[Spec.ConstantsDomain rs] (a₀, p₀, e₀, x₀), v.2.2.1 < 1 :=
          mem_nhdsWithin_of_mem_nhds ((continuous_fst.comp (continuous_snd.comp continuous_snd)).continuousAt.eventually_lt
            continuousAt_const h1)
        filter_upwards [this, self_mem_nhdsWithin] with v h1v hv
        obtain ⟨ha1, he, he1, hx, hA, hz, hp⟩ := dom v hv
        by_cases hx0 : v.2.2.2 = 0
        · rw [hx0]; exact Form.pure_polar (hz (.inr hx0)) hA he h1v
        · exact Form.pure_generic hv.2.1 (by linarith) he h1v hx0 hx
      · by_cases hx0 : x₀ = 0
        · simp only [hx0]; exact Form.pure_polar (hz₀ (.inr hx0)) hA₀ he₀ h1
        · exact Form.pure_generic ha₀ (by linarith) he₀ h1 hx0 hx₀
    · have h4 : 4 < p₀ := by
        by_contra hcon
        exact h1 (hv₀.2.2 (not_lt.mp hcon)).1
      obtain rfl : e₀ = 1 := le_antisymm he1₀ (not_lt.mp h1)
      obtain ⟨g1, -, -, g4⟩ := Form.rhoS_pos' h4 hA₀ he₀ he1₀ hx₀
      have hs : 2 < p₀ / (1 + 1) := by rw [lt_div_iff₀ hpl]; linarith
      have hr : ContinuousAt (fun v : ℝ × ℝ × ℝ × ℝ => v.2.1 / (1 + v.2.2.1)) (a₀, p₀, 1, x₀) :=
        ContinuousAt.div (by fun_prop) (by fun_prop) hpl.ne'
      have hE := (Form.E2_continuousAt (v₀ := (a₀, p₀, 1, x₀)) g4.ne').sqrt
      have hfd : Form.d (p₀ / (1 + 1)) a₀ x₀ < Form.f (p₀ / (1 + 1)) a₀ x₀ * √(Form.E2 a₀ p₀ 1 x₀) ^ 2 := by
        rw [Form.E2_parabolic g1.ne', Real.sqrt_one]
        generalize p₀ / (1 + 1) = r at hs
        have hw : 0 ≤ 1 - x₀ ^ 2 := by linarith
        have : Form.f r a₀ x₀ * 1 ^ 2 - Form.d r a₀ x₀
            = 2 * r ^ 3 + 2 * (a₀ ^ 2 * r) + a₀ ^ 2 * (1 - x₀ ^ 2) * (r ^ 2 - 2 * r + a₀ ^ 2)
              - a₀ ^ 2 * (1 - x₀ ^ 2) * (r ^ 2 - 2 * r + a₀ ^ 2) := by
          unfold Form.f Form.d; ring
        have h2 : 0 < 2 * r ^ 3 + 2 * (a₀ ^ 2 * r) := by positivity
        linarith
      have hfd' : ∀ᶠ v : ℝ × ℝ × ℝ × ℝ in 𝓝 (a₀, p₀, 1, x₀),
          Form.d (v.2.1 / (1 + v.2.2.1)) v.1 v.2.2.2
            < Form.f (v.2.1 / (1 + v.2.2.1)) v.1 v.2.2.2 * √(Form.E2 v.1 v.2.1 v.2.2.1 v.2.2.2) ^ 2 := by
        refine ContinuousAt.eventually_lt ?_ ?_ hfd
        · unfold Form.d; fun_prop
        · unfold Form.f; fun_prop
      have hp4 : ∀ᶠ v : ℝ × ℝ × ℝ × ℝ in 𝓝 (a₀, p₀, 1, x₀), 4 < v.2.1 :=
        ContinuousAt.eventually_lt continuousAt_const (by fun_prop) h4
      refine (Form.consts_continuousAt hr g4.ne' (Form.H_pos hs hx₀).ne').continuousWithinAt.congr_of_eventuallyEq ?_ ?_
      · filter_upwards [mem_nhdsWithin_of_mem_nhds hfd', mem_nhdsWithin_of_mem_nhds hp4, self_mem_nhdsWithin]
          with v hv1 hv2 hv
        obtain ⟨ha1, he, he1, hx, hA, hz, hp⟩ := dom v hv
        exact Form.pure_inner hv.2.1 ha1 hv2 he he1 hx hv1
      · exact Form.pure_inner ha₀ ha1₀ h4 he₀ le_rfl hx₀ hfd
  · rintro ⟨a, p, e, x⟩ ⟨hb, ha, -⟩
    have hX : sx a x = x := by
      rw [sx_eq]; unfold Spec.signedX; rw [if_neg (by simp only at ha; linarith)]
    have hA : sa a = a := abs_of_nonneg ha
    have := constantsOfMotion_of_bound hb
    rw [this, hX, hA]

/-- The domain contains every orbit with `p > 12`, on all sides of all case distinctions of the code. -/
lemma constantsDomain_wide (rs : RootScalar) {a p e x : ℝ} (ha : 0 ≤ a) (ha1 : a < 1) (hp : 12 < p) (he : 0 ≤ e) (he1 : e ≤ 1)
    (hx : |x| ≤ 1) : (a, p, e, x) ∈ Spec.ConstantsDomain rs :=
  ⟨C11_accepts_wide rs _ _ _ _ (by rwa [abs_of_nonneg ha]) he he1 hx (by linarith), ha,
    fun h => absurd h (by simp only []; linarith)⟩

/-- Non-vacuity: eccentric inclined orbits around slowly rotating holes converge to the circular polar orbit around the
Schwarzschild hole, whose constants come from another formula. -/
example (rs : RootScalar) : ∃ c : ℕ → Consts, ∃ c₀ : Consts,
    (∀ n : ℕ, constantsOfMotion rs (1 / (n + 2)) 13 (1 / (n + 2)) (1 / (n + 2)) = .ok (c n))
    ∧ constantsOfMotion rs 0 13 0 0 = .ok c₀ ∧ Tendsto c atTop (𝓝 c₀) := by
  obtain ⟨F, hF, hc⟩ := C57_constants_continuous rs
  have h0 : ((0:ℝ), (13:ℝ), (0:ℝ), (0:ℝ)) ∈ Spec.ConstantsDomain rs :=
    constantsDomain_wide rs le_rfl (by norm_num) (by norm_num) le_rfl (by norm_num) (by norm_num)
  have hn : ∀ n : ℕ, ((1 / (n + 2) : ℝ), (13:ℝ), (1 / (n + 2) : ℝ), (1 / (n + 2) : ℝ)) ∈ Spec.ConstantsDomain rs := by
    intro n
    have h1 : (0:ℝ) < n + 2 := by positivity
    have h2 : 1 / ((n:ℝ) + 2) < 1 := by rw [div_lt_one h1]; linarith [(Nat.cast_nonneg n : (0:ℝ) ≤ n)]
    have h3 : 0 < 1 / ((n:ℝ) + 2) := by positivity
    exact constantsDomain_wide rs h3.le h2 (by norm_num) h3.le h2.le (by rw [abs_of_pos h3]; exact h2.le)
  refine ⟨_, _, fun n => hc _ (hn n), hc _ h0, ?_⟩
  have ht : Tendsto (fun n : ℕ => 1 / ((n:ℝ) + 2)) atTop (𝓝 0) := by
    have := (tendsto_natCast_atTop_atTop (R := ℝ)).atTop_add (tendsto_const_nhds (x := (2:ℝ)))
    simp only [one_div]
    exact this.inv_tendsto_atTop
  have ht4 : Tendsto (fun n : ℕ => ((1 / ((n:ℝ) + 2)), (13:ℝ), (1 / ((n:ℝ) + 2)), (1 / ((n:ℝ) + 2)))) atTop
      (𝓝[Spec.ConstantsDomain rs] (0, 13, 0, 0)) :=
    tendsto_nhdsWithin_iff.mpr ⟨ht.prodMk_nhds (tendsto_const_nhds.prodMk_nhds (ht.prodMk_nhds ht)),
      Eventually.of_forall hn⟩
  exact (hF _ h0).tendsto.comp ht4

end KGP
