import Verif.Props.StableIff

/-!
# C15 — the separatrix is a continuous function

`fast_separatrix` interpolates a table of separatrix values.  That makes sense only because the separatrix is a
continuous function of spin, eccentricity and inclination — across the case distinctions in the code (Schwarzschild,
polar, equatorial, inclined), which use four different polynomials and five different brackets.
-/

namespace KGP

open Classical Real Filter Topology SepCert

/-- The parameters `separatrix` accepts. -/
def Spec.SeparatrixDomain : Set (ℝ × ℝ × ℝ) :=
  {v | (0 ≤ v.1 ∧ v.1 < 1) ∧ (0 ≤ v.2.1 ∧ v.2.1 ≤ 1) ∧ (-1 ≤ v.2.2 ∧ v.2.2 ≤ 1)}

section
variable {a e x s p : ℝ} (ha : 0 ≤ a) (ha1 : a < 1) (he : 0 ≤ e) (he1 : e ≤ 1) (hl : -1 ≤ x) (hr : x ≤ 1)
  (hv : IsSeparatrixValue a e x s)
include ha ha1 he he1 hl hr hv

omit ha1 he1 in
lemma small_value (h4 : s < 5) : 0 < a ∧ 0 < x ∧ 1 + e ≤ s := by
  have hpl := polarLo_bounds.1
  unfold polarLo at hpl
  have ha0 : a ≠ 0 := by
    intro h
    have := hv.zero h
    linarith
  have hx : 0 < x := by
    by_contra hcon
    rcases eq_or_lt_of_le (not_lt.mp hcon) with h | h
    · linarith [(hv.polar ha0 h).2.1]
    · rcases eq_or_lt_of_le hl with h' | h'
      · linarith [(hv.retrograde ha0 h'.symm).2.1]
      · obtain ⟨pp, -, h2, h3, -⟩ := hv.generic_retrograde ha0 h' h
        linarith
  exact ⟨lt_of_le_of_ne ha (Ne.symm ha0), hx, separatrix_ge hv ha0 hx hr⟩

lemma ratio_value (h4 : 4 ≤ s) : ratio s (a ^ 2) e (1 - x ^ 2) = 2 * √2 * a * x := by
  have hA : a ^ 2 ≤ 1 := by nlinarith
  have hx : x ^ 2 ≤ 1 := by nlinarith
  by_cases h : a = 0 ∨ x = 0
  · have hz : SFull s a e x = 0 := by
      by_cases h0 : a = 0
      · rw [h0, (C14_consistency s a e x).2.2.2.1, hv.zero h0]; ring
      · exact hv.generic h0
    have := (ratio_sq_of_zero ha hA he he1 hx h4).mp hz
    have hc : 2 * √2 * a * x = 0 := by rcases h with h | h <;> rw [h] <;> ring
    rw [hc] at this ⊢
    exact pow_eq_zero_iff two_ne_zero |>.mp (by linarith)
  · push Not at h
    exact ratio_separatrix (lt_of_le_of_ne ha (Ne.symm h.1)) ha1 he he1 h.2 hl hr h4 hv

lemma value_lt_iff (hp : 4 < p) : s < p ↔ ratio p (a ^ 2) e (1 - x ^ 2) < 2 * √2 * a * x := by
  have hA : a ^ 2 ≤ 1 := by nlinarith
  have hanti := ratio_strictAnti (sq_nonneg a) hA he he1 (w := 1 - x ^ 2) (by nlinarith)
    (by linarith [sq_nonneg x])
  constructor
  · intro h
    rcases le_or_gt 4 s with h4 | h4
    · rw [← ratio_value ha ha1 he he1 hl hr hv h4]
      exact hanti (Set.mem_Ici.mpr h4) (Set.mem_Ici.mpr hp.le) h
    · obtain ⟨k1, k2, -⟩ := small_value ha he hl hr hv (by linarith)
      exact ratio_of_value k1 ha1 he he1 k2.ne' hl hr hp hv h
  · intro h
    by_contra hcon
    have h4 : 4 ≤ s := by linarith
    rw [← ratio_value ha ha1 he he1 hl hr hv h4] at h
    exact absurd (hanti.antitoneOn (Set.mem_Ici.mpr hp.le) (Set.mem_Ici.mpr h4) (not_lt.mp hcon)) (not_le.mpr h)

lemma lt_value_iff (hp : 4 < p) : p < s ↔ 2 * √2 * a * x < ratio p (a ^ 2) e (1 - x ^ 2) := by
  have hA : a ^ 2 ≤ 1 := by nlinarith
  have hanti := ratio_strictAnti (sq_nonneg a) hA he he1 (w := 1 - x ^ 2) (by nlinarith)
    (by linarith [sq_nonneg x])
  constructor
  · intro h
    have h4 : 4 ≤ s := by linarith
    rw [← ratio_value ha ha1 he he1 hl hr hv h4]
    exact hanti (Set.mem_Ici.mpr hp.le) (Set.mem_Ici.mpr h4) h
  · intro h
    by_contra hcon
    rcases eq_or_lt_of_le (not_lt.mp hcon) with h' | h'
    · have := ratio_value ha ha1 he he1 hl hr hv (by linarith)
      rw [h'] at this
      linarith
    · have := (value_lt_iff ha ha1 he he1 hl hr hv hp).mp h'
      linarith

/-- Below `p = 4`, prograde: the sign of the polynomial tells on which side of the separatrix we are. -/
lemma small_lt_iff (ha0 : 0 < a) (hx0 : 0 < x) (hp4 : p ≤ 4) (hpe : 1 + e ≤ p) :
    (s < p ↔ SFull p a e x < 0) ∧ (p < s ↔ 0 < SFull p a e x) := by
  have hA : a ^ 2 ≤ 1 := by nlinarith
  have hx : x ^ 2 ≤ 1 := by nlinarith
  have hse := separatrix_ge hv ha0.ne' hx0 hr
  have h1 : s < p → SFull p a e x < 0 := fun h =>
    SFull_neg_after ha0 ha1 he he1 hx hse h hp4 (hv.generic ha0.ne')
  have h2 : p < s → 0 < SFull p a e x := by
    intro h
    by_contra hcon
    have hcon := not_lt.mp hcon
    -- a zero not after `p`
    obtain ⟨z, hz1, hz2, hz⟩ : ∃ z, 1 + e ≤ z ∧ z ≤ p ∧ SFull z a e x = 0 := by
      rcases eq_or_lt_of_le hcon with h' | h'
      · exact ⟨p, hpe, le_rfl, h'⟩
      · linarith [sep_lt_of_neg ha0 ha1 he he1 hx0 hr hp4 hpe hv h']
    rcases le_or_gt s 4 with h4 | h4
    · have := SFull_neg_after ha0 ha1 he he1 hx hz1 (lt_of_le_of_lt hz2 h) h4 hz
      rw [hv.generic ha0.ne'] at this
      exact lt_irrefl _ this
    · have h5 : SFull 4 a e x ≤ 0 := by
        rcases eq_or_lt_of_le (hz2.trans hp4) with h' | h'
        · rw [← h', hz]
        · exact (SFull_neg_after ha0 ha1 he he1 hx hz1 h' le_rfl hz).le
      have h6 := ratio_sq_of_nonpos ha hA he he1 hx le_rfl h5
      have hanti := ratio_strictAnti (sq_nonneg a) hA he he1 (w := 1 - x ^ 2) (by nlinarith)
        (by linarith [sq_nonneg x])
      have h7 := hanti (Set.mem_Ici.mpr le_rfl) (Set.mem_Ici.mpr h4.le) h4
      simp only at h7
      rw [ratio_value ha ha1 he he1 hl hr hv h4.le] at h7
      have hc : 0 < 2 * √2 * a * x := by positivity
      nlinarith
  refine ⟨⟨h1, fun h => ?_⟩, ⟨h2, fun h => ?_⟩⟩
  · by_contra hcon
    rcases eq_or_lt_of_le (not_lt.mp hcon) with h' | h'
    · rw [h', hv.generic ha0.ne'] at h; exact lt_irrefl _ h
    · linarith [h2 h']
  · by_contra hcon
    rcases eq_or_lt_of_le (not_lt.mp hcon) with h' | h'
    · rw [← h', hv.generic ha0.ne'] at h; exact lt_irrefl _ h
    · linarith [h1 h']

end

/-- Joint continuity of the ratio in the parameters. -/
lemma continuousAt_ratio {v : ℝ × ℝ × ℝ} (hv : v ∈ Spec.SeparatrixDomain) {p : ℝ} (hp : 4 ≤ p) :
    ContinuousAt (fun v : ℝ × ℝ × ℝ => ratio p (v.1 ^ 2) v.2.1 (1 - v.2.2 ^ 2)) v := by
  obtain ⟨⟨h1, h2⟩, ⟨h3, h4⟩, h5, h6⟩ := hv
  have hA : v.1 ^ 2 ≤ 1 := by nlinarith
  have hw : 0 ≤ 1 - v.2.2 ^ 2 := by nlinarith
  have hw1 : 1 - v.2.2 ^ 2 ≤ 1 := by linarith [sq_nonneg v.2.2]
  have n1 := M1_pos hp (sq_nonneg v.1) hA h3 h4 hw hw1
  have n2 := M2_pos hp (sq_nonneg v.1) hA h3 h4 hw hw1
  unfold ratio
  refine ContinuousAt.div ?_ ?_ (Real.sqrt_pos.mpr (mul_pos n1 n2)).ne'
  · have : Continuous fun v : ℝ × ℝ × ℝ => N p (v.1 ^ 2) v.2.1 (1 - v.2.2 ^ 2) := by
      unfold N G D B H g K; fun_prop
    exact this.continuousAt
  · have : Continuous fun v : ℝ × ℝ × ℝ => M1 p (v.1 ^ 2) v.2.1 (1 - v.2.2 ^ 2) * M2 p (v.1 ^ 2) v.2.1 (1 - v.2.2 ^ 2) := by
      unfold M1 M2 B D g K; fun_prop
    exact this.sqrt.continuousAt

lemma continuous_SFull_params (p : ℝ) : Continuous fun v : ℝ × ℝ × ℝ => SFull p v.1 v.2.1 v.2.2 := by
  unfold SFull; fun_prop

/-- **C15 (continuity).** There is one continuous function on the whole accepted parameter range —
`0 ≤ a < 1`, `0 ≤ e ≤ 1`, `-1 ≤ x ≤ 1`, including the Schwarzschild, polar and equatorial boundaries between the
branches of the code — whose values `separatrix` returns, whichever root finder is used. -/
theorem C15_continuous : ∃ f : ℝ × ℝ × ℝ → ℝ,
    (∀ rs a e x, (a, e, x) ∈ Spec.SeparatrixDomain → separatrix rs a e x = .ok (f (a, e, x)))
    ∧ ContinuousOn f Spec.SeparatrixDomain := by
  have hex : ∀ v : ℝ × ℝ × ℝ, ∃ s, v ∈ Spec.SeparatrixDomain → IsSeparatrixValue v.1 v.2.1 v.2.2 s := by
    intro v
    by_cases h : v ∈ Spec.SeparatrixDomain
    · obtain ⟨⟨h1, h2⟩, ⟨h3, h4⟩, h5, h6⟩ := h
      obtain ⟨s, -, hs⟩ := C15_separatrix_returns exampleRS v.1 v.2.1 v.2.2 h1 h2 h3 h4 h5 h6
      exact ⟨s, fun _ => hs⟩
    · exact ⟨0, fun h' => absurd h' h⟩
  choose f hf using hex
  refine ⟨f, ?_, ?_⟩
  · intro rs a e x h
    obtain ⟨⟨h1, h2⟩, ⟨h3, h4⟩, h5, h6⟩ := id h
    exact (C15_unique a e x h1 h2 h3 h4 h5 h6).2 _ (hf _ h) rs
  intro v0 hv0
  obtain ⟨⟨b1, b2⟩, ⟨b3, b4⟩, b5, b6⟩ := id hv0
  have hval := hf v0 hv0
  have hmem : ∀ᶠ v in 𝓝[Spec.SeparatrixDomain] v0, v ∈ Spec.SeparatrixDomain := self_mem_nhdsWithin
  have hcc : ContinuousAt (fun v : ℝ × ℝ × ℝ => 2 * √2 * v.1 * v.2.2) v0 := by fun_prop
  have he : ContinuousAt (fun v : ℝ × ℝ × ℝ => 1 + v.2.1) v0 := by fun_prop
  have ca : ContinuousAt (fun v : ℝ × ℝ × ℝ => v.1) v0 := by fun_prop
  have cx : ContinuousAt (fun v : ℝ × ℝ × ℝ => v.2.2) v0 := by fun_prop
  -- from above, and from below
  have up : ∀ p, f v0 < p → ∀ᶠ v in 𝓝[Spec.SeparatrixDomain] v0, f v < p := by
    intro p hp
    rcases le_or_gt 4 (f v0) with h4 | h4
    · have hp4 : 4 < p := by linarith
      have hc := (value_lt_iff b1 b2 b3 b4 b5 b6 hval hp4).mp hp
      have := ((continuousAt_ratio hv0 hp4.le).eventually_lt hcc hc).filter_mono
        (nhdsWithin_le_nhds (s := Spec.SeparatrixDomain))
      filter_upwards [this, hmem] with v k1 k2
      obtain ⟨⟨h1, h2⟩, ⟨h3, h4⟩, h5, h6⟩ := id k2
      exact (value_lt_iff h1 h2 h3 h4 h5 h6 (hf v k2) hp4).mpr k1
    · obtain ⟨c1, c2, c3⟩ := small_value b1 b3 b5 b6 hval (by linarith)
      obtain ⟨p', hp1, hp2⟩ : ∃ p', f v0 < p' ∧ p' ≤ min p 4 := ⟨min p 4, lt_min hp h4, le_rfl⟩
      have hp4 : p' ≤ 4 := hp2.trans (min_le_right _ _)
      have hc := (small_lt_iff b1 b2 b3 b4 b5 b6 hval c1 c2 hp4 (by linarith)).1.mp hp1
      have e1 := ((continuous_SFull_params p').continuousAt.eventually_lt continuousAt_const hc).filter_mono
        (nhdsWithin_le_nhds (s := Spec.SeparatrixDomain))
      have e2 := (he.eventually_lt (continuousAt_const (y := p')) (by linarith)).filter_mono
        (nhdsWithin_le_nhds (s := Spec.SeparatrixDomain))
      have e3 := ((continuousAt_const (y := (0:ℝ))).eventually_lt ca c1).filter_mono
        (nhdsWithin_le_nhds (s := Spec.SeparatrixDomain))
      have e4 := ((continuousAt_const (y := (0:ℝ))).eventually_lt cx c2).filter_mono
        (nhdsWithin_le_nhds (s := Spec.SeparatrixDomain))
      filter_upwards [e1, e2, e3, e4, hmem] with v k1 k2 k3 k4 k5
      obtain ⟨⟨h1, h2⟩, ⟨h3, h4⟩, h5, h6⟩ := id k5
      exact lt_of_lt_of_le ((small_lt_iff h1 h2 h3 h4 h5 h6 (hf v k5) k3 k4 hp4 k2.le).1.mpr k1)
        (hp2.trans (min_le_left _ _))
  have down : ∀ p, p < f v0 → ∀ᶠ v in 𝓝[Spec.SeparatrixDomain] v0, p < f v := by
    intro p hp
    rcases lt_or_ge 4 (f v0) with h4 | h4
    · obtain ⟨p', hp0, hp1, hp4⟩ : ∃ p', p ≤ p' ∧ p' < f v0 ∧ 4 < p' :=
        ⟨max p ((4 + f v0) / 2), le_max_left _ _, max_lt hp (by linarith),
          lt_of_lt_of_le (by linarith) (le_max_right _ _)⟩
      have hc := (lt_value_iff b1 b2 b3 b4 b5 b6 hval hp4).mp hp1
      have := (hcc.eventually_lt (continuousAt_ratio hv0 hp4.le) hc).filter_mono
        (nhdsWithin_le_nhds (s := Spec.SeparatrixDomain))
      filter_upwards [this, hmem] with v k1 k2
      obtain ⟨⟨h1, h2⟩, ⟨h3, h4⟩, h5, h6⟩ := id k2
      exact lt_of_le_of_lt hp0 ((lt_value_iff h1 h2 h3 h4 h5 h6 (hf v k2) hp4).mpr k1)
    · obtain ⟨c1, c2, c3⟩ := small_value b1 b3 b5 b6 hval (by linarith)
      have e3 := ((continuousAt_const (y := (0:ℝ))).eventually_lt ca c1).filter_mono
        (nhdsWithin_le_nhds (s := Spec.SeparatrixDomain))
      have e4 := ((continuousAt_const (y := (0:ℝ))).eventually_lt cx c2).filter_mono
        (nhdsWithin_le_nhds (s := Spec.SeparatrixDomain))
      rcases eq_or_lt_of_le c3 with h | h
      · have e2 := ((continuousAt_const (y := p)).eventually_lt he (by linarith)).filter_mono
          (nhdsWithin_le_nhds (s := Spec.SeparatrixDomain))
        filter_upwards [e2, e3, e4, hmem] with v k1 k2 k3 k4
        exact lt_of_lt_of_le k1 (separatrix_ge (hf v k4) k2.ne' k3 k4.2.2.2)
      · obtain ⟨p', hp0, hp1, hpe⟩ : ∃ p', p ≤ p' ∧ p' < f v0 ∧ 1 + v0.2.1 < p' :=
          ⟨max p ((1 + v0.2.1 + f v0) / 2), le_max_left _ _, max_lt hp (by linarith),
            lt_of_lt_of_le (by linarith) (le_max_right _ _)⟩
        have hp4 : p' ≤ 4 := by linarith
        have hc := (small_lt_iff b1 b2 b3 b4 b5 b6 hval c1 c2 hp4 hpe.le).2.mp hp1
        have e1 := ((continuousAt_const (y := (0:ℝ))).eventually_lt
          (continuous_SFull_params p').continuousAt hc).filter_mono
          (nhdsWithin_le_nhds (s := Spec.SeparatrixDomain))
        have e2 := (he.eventually_lt (continuousAt_const (y := p')) hpe).filter_mono
          (nhdsWithin_le_nhds (s := Spec.SeparatrixDomain))
        filter_upwards [e1, e2, e3, e4, hmem] with v k1 k2 k3 k4 k5
        obtain ⟨⟨h1, h2⟩, ⟨h3, h4⟩, h5, h6⟩ := id k5
        exact lt_of_le_of_lt hp0 ((small_lt_iff h1 h2 h3 h4 h5 h6 (hf v k5) k3 k4 hp4 k2.le).2.mpr k1)
  exact tendsto_order.mpr ⟨down, up⟩

end KGP
