import Verif.Props.Binding

/-!
# C81 — energy and angular momentum of equatorial orbits at the innermost stable circular orbit

For prograde and for retrograde equatorial orbits around a given hole the sharp lower bounds of the energy and of the angular
momentum are those of the innermost stable circular orbit, `√(1 - 2 / (3 s))` and `2 (1 + 2 √(3 s - 2)) / (3 √3)`.
-/

namespace KGP

open Classical Real Filter Topology SepCert Schmidt

/-- What `constants_of_motion` returns for bound orbits with inclination parameter `x` around a hole with spin `a`. -/
def Spec.BoundConstants (rs : RootScalar) (a x : ℝ) : Set Consts :=
  {c | ∃ p e, Spec.BoundOrbit rs a p e x ∧ e < 1 ∧ (0 < Spec.signedX a x → p ≤ 4 → Spec.DivisorsNonzero a p e x)
    ∧ constantsOfMotion rs a p e x = .ok c}

lemma circularE_sign (a σ r : ℝ) : Spec.circularE a σ r = Spec.circularE (a * σ) 1 r := by
  unfold Spec.circularE
  rw [show σ * a * √r = 1 * (a * σ) * √r by ring, show 2 * σ * a * √r = 2 * 1 * (a * σ) * √r by ring]

lemma circularL_sign {a σ : ℝ} (hσ : σ ^ 2 = 1) (r : ℝ) : Spec.circularL a σ r = σ * Spec.circularL (a * σ) 1 r := by
  unfold Spec.circularL
  rw [show 2 * σ * a * √r = 2 * 1 * (a * σ) * √r by ring, show (a * σ) ^ 2 = a ^ 2 by rw [mul_pow, hσ, mul_one]]
  ring

/-- The energy and the angular momentum of a circular equatorial orbit from its turning points. -/
lemma circular_constants {a σ p E L Q : ℝ} (hσ : σ = 1 ∨ σ = -1) (ha : 0 ≤ a) (ha1 : a < 1)
    (h : Spec.StableConstants a p 0 σ E L Q) :
    E = Spec.circularE (a * σ) 1 p ∧ |L| = Spec.circularL (a * σ) 1 p := by
  have hσ2 : σ ^ 2 = 1 := by rcases hσ with h | h <;> rw [h] <;> norm_num
  have hP := (C65_orbits a p p 0 σ E L Q E L Q ha ha1 le_rfl one_pos (by rcases hσ with h | h <;> rw [h] <;> norm_num) h h).2.2
  obtain ⟨hhor, hE, hE1, hL, hQ, hZ, r3, r4, hR, h43, h32⟩ := h
  have hQ0 : Q = 0 := by rw [hσ2] at hZ; simpa [Spec.Zpol] using hZ
  subst hQ0
  simp only [add_zero, sub_zero, div_one] at hhor hR hP
  have hL0 : 0 < σ * L := by
    rcases hσ with rfl | rfl
    · rw [Real.sign_one] at hL
      rcases lt_trichotomy L 0 with k | k | k
      · rw [Real.sign_of_neg k] at hL; norm_num at hL
      · rw [k, Real.sign_zero] at hL; norm_num at hL
      · linarith
    · rw [Real.sign_of_neg (by norm_num : (-1:ℝ) < 0)] at hL
      rcases lt_trichotomy L 0 with k | k | k
      · linarith
      · rw [k, Real.sign_zero] at hL; norm_num at hL
      · rw [Real.sign_of_pos k] at hL; norm_num at hL
  have hsn := Real.sqrt_nonneg (1 - a ^ 2)
  have hs2 := Real.sq_sqrt (by nlinarith : 0 ≤ 1 - a ^ 2)
  have hp1 : 1 < p := by linarith
  have hD : 0 < p ^ 2 - 2 * p + a ^ 2 := by nlinarith
  obtain ⟨h0, h1, -⟩ := circular_eqs hR
  obtain ⟨hN, hE', hL', -⟩ := circular_algebra (σ := σ) hσ2 hp1 (Real.sqrt_pos.mpr (by linarith))
    (Real.sq_sqrt (by linarith)) hD hL0 (by linarith) h0 h1
  have hL'' : L = Spec.circularL a σ p := hL'
  refine ⟨by rw [← circularE_sign]; exact hE', ?_⟩
  rw [circularL_sign hσ2] at hL''
  have : |L| = σ * L := by
    rcases hσ with rfl | rfl
    · rw [one_mul] at hL0 ⊢; exact abs_of_pos hL0
    · rw [abs_of_neg (by linarith)]; ring
  rw [this, hL'', ← mul_assoc, ← pow_two, hσ2, one_mul]

/-- The angular momentum at the innermost stable circular orbit. -/
lemma isco_momentum {a s : ℝ} (ha1 : a < 1) (hs1 : 1 ≤ s) (h : a = Spec.equatorialSpin 0 s) :
    Spec.circularL a 1 s = 2 * (1 + 2 * √(3 * s - 2)) / (3 * √3) := by
  obtain ⟨hs, hNp, -⟩ := isco_energy ha1 hs1 h
  have hy0 : 0 < √s := Real.sqrt_pos.mpr (by linarith)
  have hy2 := Real.sq_sqrt (by linarith : 0 ≤ s)
  have hw2 := Real.sq_sqrt (by linarith : 0 ≤ 3 * s - 2)
  have h' : a = √s * (4 - √(3 * s - 2)) / 3 := by
    rw [h]; unfold Spec.equatorialSpin
    rw [show s / (1 + 0) = s by norm_num, show (3 - 0) * s - 2 * (1 - (0:ℝ) ^ 2) = 3 * s - 2 by ring, sub_zero]
  have hw1 : 1 < √(3 * s - 2) := by
    rw [show (1:ℝ) = √1 by simp]; exact Real.sqrt_lt_sqrt (by norm_num) (by linarith)
  unfold Spec.circularL
  have hNe : s ^ 2 - 3 * s + 2 * 1 * a * √s = (√s * (√(3 * s - 2) - 1) / √3) ^ 2 := by
    have hay : a * √s = s * (4 - √(3 * s - 2)) / 3 := by
      rw [h']
      linear_combination (4 - √(3 * s - 2)) / 3 * hy2
    rw [div_pow, mul_pow, hy2, Real.sq_sqrt (by norm_num : (0:ℝ) ≤ 3), show 2 * 1 * a * √s = 2 * (a * √s) by ring, hay]
    linear_combination (-s / 3) * hw2
  have h3 : 0 < √(3:ℝ) := Real.sqrt_pos.mpr (by norm_num)
  have h32 := Real.sq_sqrt (by norm_num : (0:ℝ) ≤ 3)
  have hw : 0 < √(3 * s - 2) - 1 := by linarith
  rw [hNe, Real.sqrt_sq (by positivity)]
  generalize √s = y at *
  generalize √(3 * s - 2) = w at *
  generalize √(3:ℝ) = c at *
  have hs0 : s ≠ 0 := by linarith
  have hsw : s = (w ^ 2 + 2) / 3 := by linarith
  have hnum : s ^ 2 - 2 * 1 * a * y + a ^ 2 = s * (2 * (2 * w + 1) * (w - 1)) / 9 := by
    have hay : a * y = s * (4 - w) / 3 := by rw [h']; linear_combination (4 - w) / 3 * hy2
    have ha2 : a ^ 2 = s * (4 - w) ^ 2 / 9 := by rw [h']; linear_combination (4 - w) ^ 2 / 9 * hy2
    rw [show 2 * 1 * a * y = 2 * (a * y) by ring, hay, ha2]
    linear_combination s * hsw
  rw [hnum]
  have hw' : w - 1 ≠ 0 := hw.ne'
  have hy' := hy0.ne'
  have hc' := h3.ne'
  field_simp
  linear_combination (3 * (2 * w + 1)) * h32

lemma circularL_tendsto {a s : ℝ} (hs : 0 < s) (hN : 0 < s ^ 2 - 3 * s + 2 * a * √s) :
    Tendsto (Spec.circularL a 1) (𝓝[>] s) (𝓝 (Spec.circularL a 1 s)) := by
  have : ContinuousAt (Spec.circularL a 1) s := by
    unfold Spec.circularL
    refine ContinuousAt.div (by fun_prop) (by fun_prop) ?_
    have : 0 < √(s ^ 2 - 3 * s + 2 * 1 * a * √s) := Real.sqrt_pos.mpr (by linarith)
    positivity
  exact this.tendsto.mono_left nhdsWithin_le_nhds

/-- Every equatorial orbit has a larger energy and a larger angular momentum than the innermost stable circular one. -/
lemma equatorial_gt {a σ s p e E L Q : ℝ} (hσ : σ = 1 ∨ σ = -1) (ha : 0 ≤ a) (ha1 : a < 1) (he : 0 ≤ e) (he1 : e < 1)
    (hs : separatrix exampleRS a 0 σ = .ok s) (h : Spec.StableConstants a p e σ E L Q) :
    √(1 - 2 / (3 * s)) < E ∧ 2 * (1 + 2 * √(3 * s - 2)) / (3 * √3) < |L| := by
  have hx : |σ| = 1 := by rcases hσ with h | h <;> rw [h] <;> norm_num
  have hX := abs_le.mp hx.le
  have hx0 : σ ≠ 0 := by rcases hσ with h | h <;> rw [h] <;> norm_num
  obtain ⟨E0, L0, Q0, h0, h0E, h0L⟩ : ∃ E0 L0 Q0, Spec.StableConstants a p 0 σ E0 L0 Q0 ∧ E0 ≤ E ∧ |L0| ≤ |L| := by
    rcases eq_or_lt_of_le he with k | k
    · subst k; exact ⟨E, L, Q, h, le_rfl, le_rfl⟩
    · obtain ⟨E0, L0, Q0, h0, k1, k2, -⟩ := C68_orbits a p 0 e σ E L Q ha ha1 le_rfl k he1 hx.le h
      exact ⟨E0, L0, Q0, h0, k1.le, (k2 hx0).le⟩
  obtain ⟨s', hs', k1, k2, -, -⟩ := C69_equatorial exampleRS a 0 σ ha ha1 le_rfl zero_le_one hx
  obtain rfl := Except.ok.inj (hs.symm.trans hs')
  have hb1 : a * σ < 1 := by rcases hσ with h | h <;> rw [h] <;> linarith
  have k1' : 1 ≤ s := by linarith
  obtain ⟨hs1, hN, hE⟩ := isco_energy (a := a * σ) (s := s) hb1 k1' k2
  have hLs := isco_momentum (a := a * σ) (s := s) hb1 k1' k2
  have stab : ∀ t, s < t ↔ Spec.StableOrbit a t 0 σ := fun t =>
    ((C16_threshold exampleRS a 0 σ).2.1 t s hs).symm.trans
      (C16_exact exampleRS a t 0 σ ha ha1 le_rfl one_pos hX.1 hX.2).1
  have hsp : s < p := (stab p).mpr (stableOrbit_iff.mpr ⟨_, _, _, h0⟩)
  have hgt : ∀ t t' E L Q E' L' Q', t < t' → Spec.StableConstants a t 0 σ E L Q → Spec.StableConstants a t' 0 σ E' L' Q' →
      E < E' ∧ |L| < |L'| := fun t t' E L Q E' L' Q' htt k k' =>
    have := order_p ha ha1 le_rfl one_pos hX.1 hX.2 htt k k'
    ⟨this.1, this.2.1 hx0⟩
  obtain ⟨E', L', Q', h'⟩ := stableOrbit_iff.mp ((stab ((s + p) / 2)).mp (by linarith))
  obtain ⟨h1, h1'⟩ := hgt _ _ _ _ _ _ _ _ (by linarith) h' h0
  have hI : Set.Ioo s ((s + p) / 2) ∈ 𝓝[>] s := Ioo_mem_nhdsGT (by linarith)
  have h2 : Spec.circularE (a * σ) 1 s ≤ E' := by
    refine le_of_tendsto (circularE_tendsto (by linarith) hN) ?_
    filter_upwards [hI] with t ht
    obtain ⟨E'', L'', Q'', h''⟩ := stableOrbit_iff.mp ((stab t).mp ht.1)
    rw [← (circular_constants hσ ha ha1 h'').1]
    exact (hgt _ _ _ _ _ _ _ _ ht.2 h'' h').1.le
  have h3 : Spec.circularL (a * σ) 1 s ≤ |L'| := by
    refine le_of_tendsto (circularL_tendsto (by linarith) hN) ?_
    filter_upwards [hI] with t ht
    obtain ⟨E'', L'', Q'', h''⟩ := stableOrbit_iff.mp ((stab t).mp ht.1)
    rw [← (circular_constants hσ ha ha1 h'').2]
    exact (hgt _ _ _ _ _ _ _ _ ht.2 h'' h').2.le
  rw [← hE, ← hLs]
  exact ⟨by linarith, by linarith⟩

/-- The constants of the circular equatorial orbits next to the innermost stable one are returned by the code. -/
lemma near_isco_equatorial (rs : RootScalar) {a x s : ℝ} (ha : |a| < 1) (hx : |x| = 1)
    (hs : separatrix rs |a| 0 (Spec.signedX a x) = .ok s) :
    ∀ᶠ p in 𝓝[>] s, ∃ c ∈ Spec.BoundConstants rs a x, c.1 = Spec.circularE (a * x) 1 p
      ∧ |c.2.1| = Spec.circularL (a * x) 1 p := by
  have h0 := abs_nonneg a
  have hX : |Spec.signedX a x| = 1 := by rw [abs_signedX]; exact hx
  obtain ⟨σ, hσd⟩ : ∃ σ, σ = Spec.signedX a x := ⟨_, rfl⟩
  rw [← hσd] at hs hX
  have hσ : σ = 1 ∨ σ = -1 := by
    rcases le_or_gt 0 σ with h | h
    · left; rwa [abs_of_nonneg h] at hX
    · right; rw [abs_of_neg h] at hX; linarith
  have hax : |a| * σ = a * x := by rw [hσd, spin_std]
  have hσσ : Spec.signedX |a| σ = σ := by rw [Spec.signedX, if_neg (not_lt.mpr h0)]
  filter_upwards [isco_generic (a := a) s, self_mem_nhdsWithin] with p hp hsp
  have hsp' : s < p := hsp
  have hB : Spec.BoundOrbit rs |a| p 0 σ :=
    ⟨by rwa [abs_abs], ⟨le_rfl, zero_le_one⟩, hX.le, s, by rw [abs_abs, hσσ]; exact hs, hsp'⟩
  have hB' : Spec.BoundOrbit rs a p 0 x := ⟨ha, ⟨le_rfl, zero_le_one⟩, hx.le, s, hσd ▸ hs, hsp'⟩
  obtain ⟨-, hc, hd⟩ := bound_std hB'
  rw [← hσd] at hc hd
  obtain ⟨E, L, r3, r4, -, -, -, -, -, -, -, hdiv⟩ := circular_data hσ h0 hB fun _ => hp
  obtain ⟨E, L, Q, c, hst⟩ := constants_stable hB h0 one_pos hdiv
  obtain ⟨e1, e2⟩ := circular_constants hσ h0 ha hst
  rw [hax] at e1 e2
  exact ⟨(E, L, Q), ⟨p, 0, hB', one_pos, fun h h4 => hd.mp (hdiv (hσd ▸ h) h4), hc ▸ c⟩, e1, e2⟩

/-- **C81.** Prograde (`x = 1`) and retrograde (`x = -1`) equatorial orbits: with `s` the innermost stable circular orbit of
that sense, every energy returned for an accepted orbit is larger than `√(1 - 2 / (3 s))`, every angular momentum larger in
absolute value than `2 (1 + 2 √(3 s - 2)) / (3 √3)`, and both bounds are sharp. -/
theorem C81_equatorial_bounds (rs : RootScalar) (a x : ℝ) (ha : |a| < 1) (hx : |x| = 1) :
    ∃ s, separatrix rs |a| 0 (Spec.signedX a x) = .ok s
      ∧ (∀ E L Q, (E, L, Q) ∈ Spec.BoundConstants rs a x →
          √(1 - 2 / (3 * s)) < E ∧ E < 1 ∧ 2 * (1 + 2 * √(3 * s - 2)) / (3 * √3) < |L| ∧ Q = 0)
      ∧ IsGLB {E | ∃ L Q, (E, L, Q) ∈ Spec.BoundConstants rs a x} √(1 - 2 / (3 * s))
      ∧ IsGLB {l | ∃ E L Q, (E, L, Q) ∈ Spec.BoundConstants rs a x ∧ l = |L|} (2 * (1 + 2 * √(3 * s - 2)) / (3 * √3)) := by
  have h0 := abs_nonneg a
  have hX : |Spec.signedX a x| = 1 := by rw [abs_signedX]; exact hx
  have hσ : Spec.signedX a x = 1 ∨ Spec.signedX a x = -1 := by
    rcases le_or_gt 0 (Spec.signedX a x) with h | h
    · left; rwa [abs_of_nonneg h] at hX
    · right; rw [abs_of_neg h] at hX; linarith
  obtain ⟨s, hs, k1, k2, -⟩ := C69_equatorial rs |a| 0 _ h0 ha le_rfl zero_le_one hX
  obtain ⟨s', hs', -, -, k3, -⟩ := C69_equatorial exampleRS |a| 0 _ h0 ha le_rfl zero_le_one hX
  obtain rfl : s = s' := k3 s k1 k2
  rw [spin_std] at k2
  have hb1 : a * x < 1 := by
    rw [← spin_std]
    rcases hσ with h | h <;> rw [h] <;> linarith
  have k1' : 1 ≤ s := by linarith
  obtain ⟨hs1, hN, hE⟩ := isco_energy (a := a * x) (s := s) hb1 k1' k2
  have hLs := isco_momentum (a := a * x) (s := s) hb1 k1' k2
  have hbd : ∀ E L Q, (E, L, Q) ∈ Spec.BoundConstants rs a x →
      √(1 - 2 / (3 * s)) < E ∧ E < 1 ∧ 2 * (1 + 2 * √(3 * s - 2)) / (3 * √3) < |L| ∧ Q = 0 := by
    rintro E L Q ⟨p, e, hB, he1, hd, hc⟩
    obtain ⟨b, hc', d⟩ := bound_std hB
    obtain ⟨E', L', Q', c, hst⟩ := constants_stable b h0 he1 fun h1 h2 => d.mpr (hd h1 h2)
    rw [hc', hc] at c
    obtain ⟨rfl, rfl, rfl⟩ : E = E' ∧ L = L' ∧ Q = Q' := by simpa using c
    obtain ⟨g1, g2⟩ := equatorial_gt hσ h0 ha hB.2.1.1 he1 hs' hst
    obtain ⟨-, -, g3, -, -, hZ, -⟩ := hst
    have hx2 : Spec.signedX a x ^ 2 = 1 := by rw [← sq_abs, hX, one_pow]
    rw [hx2] at hZ
    exact ⟨g1, g3, g2, by simpa [Spec.Zpol] using hZ⟩
  have hnear := near_isco_equatorial rs ha hx hs
  refine ⟨s, hs, hbd, ⟨?_, fun l hl => ?_⟩, ⟨?_, fun l hl => ?_⟩⟩
  · rintro E ⟨L, Q, h⟩
    exact (hbd E L Q h).1.le
  · rw [← hE]
    refine ge_of_tendsto (circularE_tendsto (by linarith) hN) ?_
    filter_upwards [hnear] with p hp
    obtain ⟨⟨E, L, Q⟩, h, h1, -⟩ := hp
    rw [← h1]
    exact hl ⟨L, Q, h⟩
  · rintro l ⟨E, L, Q, h, rfl⟩
    exact (hbd E L Q h).2.2.1.le
  · rw [← hLs]
    refine ge_of_tendsto (circularL_tendsto (by linarith) hN) ?_
    filter_upwards [hnear] with p hp
    obtain ⟨⟨E, L, Q⟩, h, -, h2⟩ := hp
    rw [← h2]
    exact hl ⟨E, L, Q, h, rfl⟩

/-- **C81 (over all spins).** Every bound equatorial orbit has an angular momentum above `2 / √3`; a retrograde one moreover
has `E > √(8 / 9)` and an angular momentum above `2 √3`. -/
theorem C81_all_spins (rs : RootScalar) (a x E L Q : ℝ) (ha : |a| < 1) (hx : |x| = 1)
    (h : (E, L, Q) ∈ Spec.BoundConstants rs a x) :
    2 / √3 < |L| ∧ (Spec.signedX a x = -1 → √(8 / 9) < E ∧ 2 * √3 < |L|) := by
  have h0 := abs_nonneg a
  have hX : |Spec.signedX a x| = 1 := by rw [abs_signedX]; exact hx
  obtain ⟨s, hs, hbd, -, -⟩ := C81_equatorial_bounds rs a x ha hx
  obtain ⟨b1, -, b2, -⟩ := hbd E L Q h
  obtain ⟨s', hs', k1, k2, -⟩ := C69_equatorial rs |a| 0 _ h0 ha le_rfl zero_le_one hX
  obtain rfl := Except.ok.inj (hs.symm.trans hs')
  have h3 : 0 < √(3:ℝ) := Real.sqrt_pos.mpr (by norm_num)
  have h32 := Real.sq_sqrt (by norm_num : (0:ℝ) ≤ 3)
  constructor
  · refine lt_of_le_of_lt ?_ b2
    have : 1 ≤ √(3 * s - 2) := Real.one_le_sqrt.mpr (by linarith)
    rw [div_le_div_iff₀ h3 (by positivity)]
    have := mul_le_mul_of_nonneg_right this h3.le
    linarith
  · intro hm
    rw [hm] at k2
    have h6 : 6 ≤ s := by
      by_contra hlt
      push Not at hlt
      have := equatorialSpin_anti le_rfl zero_le_one k1 (by norm_num : (6:ℝ) ∈ Set.Ici (1 + 0)) hlt
      rw [equatorialSpin_six] at this
      have k2' : |a| * -1 = Spec.equatorialSpin 0 s := k2
      linarith
    constructor
    · refine lt_of_le_of_lt (Real.sqrt_le_sqrt ?_) b1
      have : 2 / (3 * s) ≤ 1 / 9 := by rw [div_le_div_iff₀ (by linarith) (by norm_num)]; linarith
      linarith
    · refine lt_of_le_of_lt ?_ b2
      have : 4 ≤ √(3 * s - 2) := Real.le_sqrt_of_sq_le (by linarith)
      rw [le_div_iff₀ (by positivity)]
      nlinarith

/-- Non-vacuity: retrograde orbits around a spinning hole. -/
example (rs : RootScalar) : ∃ E L Q, (E, L, Q) ∈ Spec.BoundConstants rs (9 / 10) (-1) ∧ √(8 / 9) < E ∧ 2 * √3 < |L| := by
  have hb : Spec.BoundOrbit rs (9 / 10) 13 (1 / 2) (-1) :=
    C11_accepts_wide rs _ _ _ _ (by rw [abs_of_pos] <;> norm_num) (by norm_num) (by norm_num) (by norm_num) (by norm_num)
  have hX : Spec.signedX (9 / 10) (-1) = -1 := by unfold Spec.signedX; norm_num
  obtain ⟨E, L, Q, hc, -⟩ := constants_stable hb (by norm_num) (by norm_num) fun _ h => absurd h (by norm_num)
  have hm : (E, L, Q) ∈ Spec.BoundConstants rs (9 / 10) (-1) :=
    ⟨13, 1 / 2, hb, by norm_num, fun _ h => absurd h (by norm_num), hc⟩
  exact ⟨E, L, Q, hm, (C81_all_spins rs _ _ E L Q (by rw [abs_of_pos] <;> norm_num) (by norm_num) hm).2 hX⟩

end KGP
