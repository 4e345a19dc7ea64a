import Verif.Props.EccentricityOrder
import Verif.Props.SpinOrder
import Verif.Props.ClosedForms
import Verif.Props.Kepler

/-!
# C79 — the energies of bound orbits: the binding energy at the innermost stable circular orbit

For every spin the energies `constants_of_motion` returns for accepted bound orbits lie strictly between the energy
`√(1 - 2 / (3 r_isco))` of the innermost stable circular orbit and `1`, both bounds are sharp, and over all spins the sharp
lower bound is `1 / √3` (a radiative efficiency of at most 42.3 %).
-/

namespace KGP

open Classical Real Filter Topology SepCert Schmidt

/-- The energies `constants_of_motion` returns for bound orbits around a hole with spin `a` (for prograde orbits with `p ≤ 4`,
away from the zeros of the divisors of its formulas). -/
def Spec.BoundEnergies (rs : RootScalar) (a : ℝ) : Set ℝ :=
  {E | ∃ p e x L Q, Spec.BoundOrbit rs a p e x ∧ e < 1 ∧ (0 < Spec.signedX a x → p ≤ 4 → Spec.DivisorsNonzero a p e x)
    ∧ constantsOfMotion rs a p e x = .ok (E, L, Q)}

/-- The energy of a circular equatorial orbit from its turning points. -/
lemma circular_energy {a p E L Q : ℝ} (ha : 0 ≤ a) (ha1 : a < 1) (h : Spec.StableConstants a p 0 1 E L Q) :
    E = Spec.circularE a 1 p ∧ 0 < p ^ 2 - 3 * p + 2 * a * √p := by
  have hP := (C65_orbits a p p 0 1 E L Q E L Q ha ha1 le_rfl one_pos (by norm_num) h h).2.2
  obtain ⟨hhor, hE, hE1, hL, hQ, hZ, r3, r4, hR, h43, h32⟩ := h
  have hQ0 : Q = 0 := by simpa [Spec.Zpol] using hZ
  subst hQ0
  simp only [add_zero, sub_zero, div_one] at hhor hR hP
  rw [Real.sign_one] at hL
  have hL0 : 0 < L := by
    rcases lt_trichotomy L 0 with k | k | k
    · rw [Real.sign_of_neg k] at hL; norm_num at hL
    · rw [k, Real.sign_zero] at hL; norm_num at hL
    · exact k
  have hsn := Real.sqrt_nonneg (1 - a ^ 2)
  have hs2 := Real.sq_sqrt (by nlinarith : 0 ≤ 1 - a ^ 2)
  have hp1 : 1 < p := by linarith
  have hD : 0 < p ^ 2 - 2 * p + a ^ 2 := by nlinarith
  obtain ⟨h0, h1, -⟩ := circular_eqs hR
  obtain ⟨hN, hE', -, -⟩ := circular_algebra (σ := 1) (by norm_num) hp1 (Real.sqrt_pos.mpr (by linarith))
    (Real.sq_sqrt (by linarith)) hD (by linarith) (by linarith) h0 h1
  exact ⟨hE', by linarith⟩

/-- At the innermost stable circular orbit. -/
lemma isco_energy {a s : ℝ} (ha1 : a < 1) (hs1 : 1 ≤ s) (h : a = Spec.equatorialSpin 0 s) :
    1 < s ∧ 0 < s ^ 2 - 3 * s + 2 * a * √s ∧ Spec.circularE a 1 s = √(1 - 2 / (3 * s)) := by
  have hy0 : 0 < √s := Real.sqrt_pos.mpr (by linarith)
  have hy2 := Real.sq_sqrt (by linarith : 0 ≤ s)
  have hw2 := Real.sq_sqrt (by linarith : 0 ≤ 3 * s - 2)
  have hw0 : 1 ≤ √(3 * s - 2) := Real.one_le_sqrt.mpr (by linarith)
  have h' : a = √s * (4 - √(3 * s - 2)) / 3 := by
    rw [h]; unfold Spec.equatorialSpin
    rw [show s / (1 + 0) = s by norm_num, show (3 - 0) * s - 2 * (1 - (0:ℝ) ^ 2) = 3 * s - 2 by ring, sub_zero]
  have hs : 1 < s := by
    refine lt_of_le_of_ne hs1 fun h1 => ?_
    rw [← h1] at h'
    norm_num at h'
    linarith
  unfold Spec.circularE
  generalize √s = y at *
  have hw1 : 1 < √(3 * s - 2) := by
    rw [show (1:ℝ) = √1 by simp]; exact Real.sqrt_lt_sqrt (by norm_num) (by linarith)
  rw [show 1 - 2 / (3 * s) = (3 * s - 2) / (3 * s) by field_simp]
  generalize √(3 * s - 2) = w at *
  have hay : a * y = s * (4 - w) / 3 := by rw [h', ← hy2]; ring
  have hsw : s = (w ^ 2 + 2) / 3 := by linarith
  have hN : s ^ 2 - 3 * s + 2 * 1 * a * y = s * (w - 1) ^ 2 / 3 := by
    rw [show 2 * 1 * a * y = 2 * (a * y) by ring, hay]
    linear_combination s * hsw
  have hNpos : 0 < s * (w - 1) ^ 2 / 3 := by
    have : 0 < w - 1 := by linarith
    positivity
  have hnum : s ^ 2 - 2 * s + 1 * a * y = s * (w * (w - 1) / 3) := by
    rw [show 1 * a * y = a * y by ring, hay]
    linear_combination s * hsw
  refine ⟨hs, by linarith, ?_⟩
  rw [hN, hnum]
  have hq0 := Real.sqrt_pos.mpr hNpos
  have hq2 := Real.sq_sqrt hNpos.le
  generalize √(s * (w - 1) ^ 2 / 3) = q at *
  have hpos : 0 ≤ s * (w * (w - 1) / 3) / (s * q) := by
    have : 0 < w - 1 := by linarith
    positivity
  rw [← Real.sqrt_sq hpos]
  congr 1
  have hwne : w - 1 ≠ 0 := by linarith
  rw [mul_div_mul_left _ _ (by linarith : s ≠ 0), div_pow, hq2, ← hw2]
  field_simp

/-- The energy of circular equatorial orbits is continuous down to the innermost stable one. -/
lemma circularE_tendsto {a s : ℝ} (hs : 0 < s) (hN : 0 < s ^ 2 - 3 * s + 2 * a * √s) :
    Tendsto (Spec.circularE a 1) (𝓝[>] s) (𝓝 (Spec.circularE a 1 s)) := by
  have : ContinuousAt (Spec.circularE a 1) s := by
    unfold Spec.circularE
    refine ContinuousAt.div (by fun_prop) (by fun_prop) ?_
    have : 0 < √(s ^ 2 - 3 * s + 2 * 1 * a * √s) := Real.sqrt_pos.mpr (by linarith)
    positivity
  exact this.tendsto.mono_left nhdsWithin_le_nhds

/-- Every circular prograde orbit has a larger energy than the innermost stable one. -/
lemma circular_gt {a s p E L Q : ℝ} (ha : 0 ≤ a) (ha1 : a < 1) (hs : separatrix exampleRS a 0 1 = .ok s)
    (h : Spec.StableConstants a p 0 1 E L Q) : √(1 - 2 / (3 * s)) < E := by
  obtain ⟨s', hs', k1, k2, -, -⟩ := C69_equatorial exampleRS a 0 1 ha ha1 le_rfl zero_le_one (by norm_num)
  obtain rfl := Except.ok.inj (hs.symm.trans hs')
  rw [mul_one] at k2
  obtain ⟨hs1, hN, hE⟩ := isco_energy (a := a) (s := s) ha1 (by linarith) k2
  have stab : ∀ t, s < t ↔ Spec.StableOrbit a t 0 1 := fun t =>
    ((C16_threshold exampleRS a 0 1).2.1 t s hs).symm.trans
      (C16_exact exampleRS a t 0 1 ha ha1 le_rfl one_pos (by norm_num) le_rfl).1
  have hsp : s < p := (stab p).mpr (stableOrbit_iff.mpr ⟨_, _, _, h⟩)
  have hgt : ∀ t t' E L Q E' L' Q', t < t' → Spec.StableConstants a t 0 1 E L Q → Spec.StableConstants a t' 0 1 E' L' Q' →
      E < E' := fun t t' E L Q E' L' Q' htt k k' =>
    (order_p ha ha1 le_rfl one_pos (by norm_num) le_rfl htt k k').1
  obtain ⟨E', L', Q', h'⟩ := stableOrbit_iff.mp ((stab ((s + p) / 2)).mp (by linarith))
  have h1 := hgt _ _ _ _ _ _ _ _ (by linarith) h' h
  have h2 : Spec.circularE a 1 s ≤ E' := by
    refine le_of_tendsto (circularE_tendsto (by linarith) hN) ?_
    have : Set.Ioo s ((s + p) / 2) ∈ 𝓝[>] s := Ioo_mem_nhdsGT (by linarith)
    filter_upwards [this] with t ht
    obtain ⟨E'', L'', Q'', h''⟩ := stableOrbit_iff.mp ((stab t).mp ht.1)
    rw [← (circular_energy ha ha1 h'').1]
    exact (hgt _ _ _ _ _ _ _ _ ht.2 h'' h').le
  rw [← hE]
  linarith

/-- Every stable bound orbit has a larger energy than the innermost stable circular orbit. -/
lemma energy_gt {a s p e x E L Q : ℝ} (ha : 0 ≤ a) (ha1 : a < 1) (he : 0 ≤ e) (he1 : e < 1) (hx : |x| ≤ 1)
    (hs : separatrix exampleRS a 0 1 = .ok s) (h : Spec.StableConstants a p e x E L Q) : √(1 - 2 / (3 * s)) < E := by
  have hX := abs_le.mp hx
  -- a circular orbit with the same p and x
  obtain ⟨E0, L0, Q0, h0, h0E⟩ : ∃ E0 L0 Q0, Spec.StableConstants a p 0 x E0 L0 Q0 ∧ E0 ≤ E := by
    rcases eq_or_lt_of_le he with k | k
    · subst k; exact ⟨E, L, Q, h, le_rfl⟩
    · obtain ⟨E0, L0, Q0, h0, k1, -⟩ := C68_orbits a p 0 e x E L Q ha ha1 le_rfl k he1 hx h
      exact ⟨E0, L0, Q0, h0, k1.le⟩
  -- a prograde equatorial one
  obtain ⟨E1, L1, Q1, h1, h1E⟩ : ∃ E1 L1 Q1, Spec.StableConstants a p 0 1 E1 L1 Q1 ∧ E1 ≤ E0 := by
    rcases eq_or_lt_of_le hX.2 with k | k
    · subst k; exact ⟨E0, L0, Q0, h0, le_rfl⟩
    have st0 : isStable exampleRS a p 0 x = .ok true :=
      (C16_exact exampleRS a p 0 x ha ha1 le_rfl one_pos hX.1 hX.2).1.mpr (stableOrbit_iff.mpr ⟨_, _, _, h0⟩)
    rcases eq_or_lt_of_le ha with k0 | k0
    · subst k0
      obtain ⟨t, ht, hv⟩ := C15_separatrix_returns exampleRS 0 0 x le_rfl one_pos le_rfl zero_le_one hX.1 hX.2
      have htp := ((C16_threshold exampleRS 0 0 x).2.1 p t ht).mp st0
      have st1 : isStable exampleRS 0 p 0 1 = .ok true := by
        obtain ⟨t', ht', hv'⟩ := C15_separatrix_returns exampleRS 0 0 1 le_rfl one_pos le_rfl zero_le_one (by norm_num) le_rfl
        rw [(C16_threshold exampleRS 0 0 1).2.1 p t' ht', hv'.zero rfl]
        rwa [hv.zero rfl] at htp
      obtain ⟨E1, L1, Q1, h1⟩ := stableOrbit_iff.mp
        ((C16_exact exampleRS 0 p 0 1 le_rfl one_pos le_rfl one_pos (by norm_num) le_rfl).1.mp st1)
      obtain ⟨Y, o, -⟩ := StableConstants.orb le_rfl one_pos le_rfl one_pos (by nlinarith) h0
      obtain ⟨Y', o', -⟩ := StableConstants.orb le_rfl one_pos le_rfl one_pos (by norm_num) h1
      have o'' : EMono.Orb (0 ^ 2) (0 * x) (p / (1 - 0)) (p / (1 + 0)) E1 Y' := by
        rw [zero_mul] at o' ⊢
        exact o'
      have := (pre_unique le_rfl one_pos le_rfl one_pos hX.1 hX.2 hv htp h0.1 o o''.pre).1
      exact ⟨_, _, _, h1, this.le⟩
    · have st1 := (C64_inclination exampleRS a 0 x 1 k0 ha1 le_rfl zero_le_one hX.1 k le_rfl).2 p st0
      obtain ⟨E1, L1, Q1, h1⟩ := stableOrbit_iff.mp
        ((C16_exact exampleRS a p 0 1 ha ha1 le_rfl one_pos (by norm_num) le_rfl).1.mp st1)
      exact ⟨_, _, _, h1, (order_x k0 ha1 le_rfl one_pos hX.1 k le_rfl h0 h1).le⟩
  exact lt_of_lt_of_le (circular_gt ha ha1 hs h1) (h1E.trans h0E)

lemma isco_any {rs rs' : RootScalar} {a s : ℝ} (ha : 0 ≤ a) (ha1 : a < 1) (h : separatrix rs a 0 1 = .ok s) :
    separatrix rs' a 0 1 = .ok s := by
  obtain ⟨t, ht, k1, k2, -⟩ := C69_equatorial rs a 0 1 ha ha1 le_rfl zero_le_one (by norm_num)
  obtain rfl := Except.ok.inj (ht.symm.trans h)
  obtain ⟨t', ht', -, -, k3, -⟩ := C69_equatorial rs' a 0 1 ha ha1 le_rfl zero_le_one (by norm_num)
  rw [ht', k3 _ k1 k2]

lemma equatorialSpin_six : Spec.equatorialSpin 0 6 = 0 := by
  unfold Spec.equatorialSpin
  rw [show ((3:ℝ) - 0) * 6 - 2 * (1 - 0 ^ 2) = 4 ^ 2 by norm_num, Real.sqrt_sq (by norm_num)]
  norm_num

lemma equatorialSpin_one : Spec.equatorialSpin 0 1 = 1 := by
  unfold Spec.equatorialSpin
  rw [show ((3:ℝ) - 0) * 1 - 2 * (1 - 0 ^ 2) = 1 by norm_num, Real.sqrt_one]
  norm_num

lemma signedX_signedX (a : ℝ) : Spec.signedX a (Spec.signedX a 1) = 1 := by
  unfold Spec.signedX
  split_ifs <;> norm_num

/-- Next to any radius the divisors of the formulas for circular orbits do not vanish. -/
lemma isco_generic {a : ℝ} (s : ℝ) : ∀ᶠ p in 𝓝[>] s, p ≠ 2 ∧ p * (p - 3) ^ 2 ≠ 4 * |a| ^ 2 := by
  have hf : (({2} : Set ℝ) ∪ {p | p * (p - 3) ^ 2 = 4 * |a| ^ 2}).Finite := by
    refine (Set.finite_singleton _).union ?_
    have := Polynomial.finite_setOfPred_isRoot
      (p := Polynomial.X * (Polynomial.X - Polynomial.C 3) ^ 2 - Polynomial.C (4 * |a| ^ 2)) (by
        intro h0
        have e1 := congrArg (Polynomial.eval (3:ℝ)) h0
        have e2 := congrArg (Polynomial.eval (4:ℝ)) h0
        simp at e1 e2
        rw [e1] at e2
        norm_num at e2)
    refine this.subset fun p hp => ?_
    have hp' : p * (p - 3) ^ 2 = 4 * |a| ^ 2 := hp
    simp only [Set.mem_ofPred_eq, Polynomial.IsRoot, Polynomial.eval_sub, Polynomial.eval_mul, Polynomial.eval_pow,
      Polynomial.eval_X, Polynomial.eval_C]
    linarith
  have h2 := (hf.subset (Set.sdiff_subset (t := {s}))).isClosed.isOpen_compl.mem_nhds (x := s) (by simp)
  filter_upwards [mem_nhdsWithin_of_mem_nhds h2, self_mem_nhdsWithin] with p hp hsp
  have hne : p ∉ ({s} : Set ℝ) := (ne_of_gt hsp : p ≠ s)
  exact ⟨fun h => hp ⟨.inl h, hne⟩, fun h => hp ⟨.inr h, hne⟩⟩

/-- The constants of the circular prograde orbits next to the innermost stable one. -/
lemma near_isco (rs : RootScalar) {a s : ℝ} (ha : |a| < 1) (hs : separatrix rs |a| 0 1 = .ok s) :
    ∀ᶠ p in 𝓝[>] s, Spec.circularE |a| 1 p ∈ Spec.BoundEnergies rs a := by
  filter_upwards [isco_generic (a := a) s, self_mem_nhdsWithin] with p hp hsp
  have hsp' : s < p := hsp
  have hB : Spec.BoundOrbit rs |a| p 0 1 := by
    refine ⟨by rwa [abs_abs], ⟨le_rfl, zero_le_one⟩, by norm_num, s, ?_, hsp'⟩
    rw [abs_abs, Spec.signedX, if_neg (not_lt.mpr (abs_nonneg a))]
    exact hs
  have hB' : Spec.BoundOrbit rs a p 0 (Spec.signedX a 1) := by
    refine ⟨ha, ⟨le_rfl, zero_le_one⟩, by rw [abs_signedX]; norm_num, s, ?_, hsp'⟩
    rw [signedX_signedX]
    exact hs
  obtain ⟨-, hc, hd⟩ := bound_std hB'
  rw [signedX_signedX] at hc hd
  have hcc := (C51_circular_constants rs |a| p 1 (.inl rfl) (abs_nonneg a) hB fun _ => hp).1
  obtain ⟨E, L, r3, r4, -, -, -, -, -, -, -, hdiv⟩ := circular_data (.inl rfl) (abs_nonneg a) hB fun _ => hp
  exact ⟨p, 0, Spec.signedX a 1, _, _, hB', one_pos, fun _ h4 => hd.mp (hdiv one_pos h4), hc ▸ hcc⟩

/-- **C79.** For every spin, with `s` the innermost stable circular orbit the library's own `separatrix` returns: the energies
`constants_of_motion` returns for bound orbits lie strictly between `√(1 - 2 / (3 s))` and `1`, and both bounds are sharp. -/
theorem C79_energy_bounds (rs : RootScalar) (a : ℝ) (ha : |a| < 1) :
    ∃ s, separatrix rs |a| 0 1 = .ok s ∧ 1 < s ∧ s ≤ 6
      ∧ (∀ E ∈ Spec.BoundEnergies rs a, √(1 - 2 / (3 * s)) < E ∧ E < 1)
      ∧ IsGLB (Spec.BoundEnergies rs a) √(1 - 2 / (3 * s)) ∧ IsLUB (Spec.BoundEnergies rs a) 1 := by
  obtain ⟨s, hs, k1, k2, -, -⟩ := C69_equatorial rs |a| 0 1 (abs_nonneg a) ha le_rfl zero_le_one (by norm_num)
  rw [mul_one] at k2
  obtain ⟨hs1, hN, hE⟩ := isco_energy (a := |a|) (s := s) ha (by linarith) k2
  have hs6 : s ≤ 6 := by
    by_contra h
    push Not at h
    have := equatorialSpin_anti le_rfl zero_le_one (by norm_num : (6:ℝ) ∈ Set.Ici (1 + 0)) k1 h
    rw [equatorialSpin_six] at this
    have h0 := abs_nonneg a
    rw [show |a| = Spec.equatorialSpin 0 s from k2] at h0
    linarith
  have hbd : ∀ E ∈ Spec.BoundEnergies rs a, √(1 - 2 / (3 * s)) < E ∧ E < 1 := by
    rintro E ⟨p, e, x, L, Q, hB, he1, hd, hc⟩
    obtain ⟨b, hc', d⟩ := bound_std hB
    obtain ⟨E', L', Q', c, hst⟩ := constants_stable b (abs_nonneg a) he1 fun h1 h2 => d.mpr (hd h1 h2)
    rw [hc', hc] at c
    obtain ⟨rfl, -, -⟩ : E = E' ∧ L = L' ∧ Q = Q' := by simpa using c
    exact ⟨energy_gt (abs_nonneg a) ha hB.2.1.1 he1 b.2.2.1 (isco_any (abs_nonneg a) ha hs) hst, hst.2.2.1⟩
  refine ⟨s, hs, hs1, hs6, hbd, ⟨fun E h => (hbd E h).1.le, fun l hl => ?_⟩, fun E h => (hbd E h).2.le, fun u hu => ?_⟩
  · rw [← hE]
    refine ge_of_tendsto (circularE_tendsto (by linarith) hN) ?_
    filter_upwards [near_isco rs ha hs] with p hp
    exact hl hp
  · obtain ⟨E, L, Q, wr, wth, wph, h1, h2, -⟩ := C62_kepler rs a 0 1 ha le_rfl one_pos one_ne_zero (by norm_num)
    have h3 : Tendsto E atTop (𝓝 1) := by
      have h4 := h2.div_atTop (tendsto_id (α := ℝ))
      have h5 : Tendsto (fun p => 1 - (1 - E p) * (p / (1 - 0 ^ 2)) / id p) atTop (𝓝 (1 - 0)) := h4.const_sub 1
      rw [sub_zero] at h5
      refine h5.congr' ?_
      filter_upwards [eventually_gt_atTop 0] with p hp
      have : p ≠ 0 := hp.ne'
      simp only [id]
      field_simp
      ring
    refine le_of_tendsto h3 ?_
    filter_upwards [h1, eventually_gt_atTop 12] with p hp hp12
    exact hu ⟨p, 0, 1, L p, Q p, C11_accepts_wide rs a p 0 1 ha le_rfl zero_le_one (by norm_num) hp12, one_pos,
      fun _ h => absurd h (by linarith), hp.1⟩

/-- **C79 (over all spins).** No bound orbit around any hole has an energy of `1 / √3` or less (it can lose at most 42.3 % of its
rest mass), and this bound is sharp. -/
theorem C79_efficiency (rs : RootScalar) :
    (∀ a E, |a| < 1 → E ∈ Spec.BoundEnergies rs a → 1 / √3 < E)
    ∧ IsGLB {E | ∃ a, |a| < 1 ∧ E ∈ Spec.BoundEnergies rs a} (1 / √3) := by
  have h3 : (1:ℝ) / √3 = √(1 / 3) := by rw [Real.sqrt_div zero_le_one, Real.sqrt_one]
  have hbd : ∀ a E, |a| < 1 → E ∈ Spec.BoundEnergies rs a → 1 / √3 < E := by
    intro a E ha hE
    obtain ⟨s, -, hs1, -, h, -⟩ := C79_energy_bounds rs a ha
    refine lt_trans ?_ (h E hE).1
    rw [h3]
    refine Real.sqrt_lt_sqrt (by norm_num) ?_
    rw [lt_sub_comm, div_lt_iff₀ (by linarith)]
    linarith
  refine ⟨hbd, ⟨?_, fun l hl => ?_⟩⟩
  · rintro E ⟨a, ha, hE⟩
    exact (hbd a E ha hE).le
  · have hle : ∀ s, 1 < s → s < 6 → l ≤ √(1 - 2 / (3 * s)) := by
      intro s h1 h6
      have m1 : (1:ℝ) ∈ Set.Ici (1 + (0:ℝ)) := by norm_num
      have m6 : (6:ℝ) ∈ Set.Ici (1 + (0:ℝ)) := by norm_num
      have ms : s ∈ Set.Ici (1 + (0:ℝ)) := by rw [add_zero]; exact h1.le
      have hanti := equatorialSpin_anti le_rfl zero_le_one
      have q1 := hanti m1 ms h1
      have q6 := hanti ms m6 h6
      rw [equatorialSpin_one] at q1
      rw [equatorialSpin_six] at q6
      have ha : |Spec.equatorialSpin 0 s| < 1 := by rwa [abs_of_pos q6]
      obtain ⟨t, ht, -, -, -, hg, -⟩ := C79_energy_bounds rs _ ha
      rw [abs_of_pos q6] at ht
      obtain ⟨t', ht', -, -, k, -⟩ := C69_equatorial rs _ 0 1 q6.le q1 le_rfl zero_le_one (by norm_num)
      obtain rfl := Except.ok.inj (ht.symm.trans ht')
      rw [← k s ms (by rw [mul_one])] at hg
      exact hg.2 fun E hE => hl ⟨_, ha, hE⟩
    have hc : ContinuousAt (fun s : ℝ => √(1 - 2 / (3 * s))) 1 := by
      refine ContinuousAt.sqrt (ContinuousAt.sub continuousAt_const (ContinuousAt.div continuousAt_const (by fun_prop) (by norm_num)))
    have ht : Tendsto (fun s : ℝ => √(1 - 2 / (3 * s))) (𝓝[>] 1) (𝓝 √(1 - 2 / (3 * 1))) :=
      hc.tendsto.mono_left nhdsWithin_le_nhds
    rw [h3, show (1:ℝ) / 3 = 1 - 2 / (3 * 1) by norm_num]
    refine ge_of_tendsto ht ?_
    filter_upwards [Ioo_mem_nhdsGT (by norm_num : (1:ℝ) < 6)] with s hs
    exact hle s hs.1 hs.2

/-- Non-vacuity: a Schwarzschild hole, where the bound is `√(8 / 9)`. -/
example (rs : RootScalar) : IsGLB (Spec.BoundEnergies rs 0) √(8 / 9) ∧ (Spec.BoundEnergies rs 0).Nonempty := by
  obtain ⟨s, hs, -, -, -, h, hl⟩ := C79_energy_bounds rs 0 (by norm_num)
  rw [abs_zero] at hs
  obtain ⟨t, ht, hv⟩ := C15_separatrix_returns rs 0 0 1 le_rfl one_pos le_rfl zero_le_one (by norm_num) le_rfl
  obtain rfl := Except.ok.inj (hs.symm.trans ht)
  rw [hv.zero rfl] at h
  refine ⟨by convert h using 2; norm_num, ?_⟩
  by_contra hne
  rw [Set.not_nonempty_iff_eq_empty.mp hne] at hl
  exact absurd (hl.2 (fun _ h => absurd h (Set.notMem_empty _)) : (1:ℝ) ≤ 0) (by norm_num)

end KGP
