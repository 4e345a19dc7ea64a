import Verif.Props.EnergyOrder
import Verif.Lemmas.EccLimit

/-!
# C67, C68 — how the separatrix and the constants of motion depend on the eccentricity

The separatrix strictly increases with the eccentricity, so an accepted orbit stays accepted when its eccentricity is
lowered, and a rounder orbit of the same semi-latus rectum and inclination has a smaller energy, angular momentum and
Carter constant.
-/

namespace KGP

open Classical Real Filter Topology SepCert Schmidt

/-- An orbit in the variables of `EMono` is a stable orbit. -/
lemma StableConstants.of_orb {a p e x E Y : ℝ} (ha : 0 ≤ a) (ha1 : a < 1) (hx : x ^ 2 ≤ 1)
    (hhor : 1 + √(1 - a ^ 2) < p / (1 + e))
    (o : EMono.Orb (a ^ 2) (a * x) (p / (1 - e)) (p / (1 + e)) E Y) :
    Spec.StableConstants a p e x E (x * Y) ((1 - x ^ 2) * (a ^ 2 * (1 - E ^ 2) + Y ^ 2)) := by
  have hsn := Real.sqrt_nonneg (1 - a ^ 2)
  have hs1 : 1 < p / (1 + e) := by linarith
  have hr0 : 0 < p / (1 - e) := by linarith [o.hsr]
  have hs0 : 0 < p / (1 + e) := by linarith
  have P := o.pre
  have hE2 := o.E2
  have hT := P.T_ge o.hb o.hA hs1 o.hsr
  have hN := o.hq _ le_rfl
  have hq := EMono.q_eq (A := a ^ 2) (b := a * x) (Y := Y) hE2 hr0 hs0
  have hw : 0 ≤ 1 - x ^ 2 := by linarith
  refine ⟨hhor, o.hE, o.hE1, ?_, ?_, by unfold Spec.Zpol; ring, ?_⟩
  · rcases lt_trichotomy x 0 with k | k | k
    · rw [Real.sign_of_neg k, Real.sign_of_neg (mul_neg_of_neg_of_pos k o.hY)]
    · rw [k, zero_mul]
    · rw [Real.sign_of_pos k, Real.sign_of_pos (mul_pos k o.hY)]
  · exact mul_nonneg hw (add_nonneg (mul_nonneg (sq_nonneg a) (by linarith)) (sq_nonneg Y))
  · have hfac := o.factor
    rw [hq] at hN
    have hqv := fun t => (hfac t).trans (by rw [hq t])
    generalize EMono.iT E (p / (1 - e)) (p / (1 + e)) = T at *
    generalize EMono.iM (a ^ 2) (a * x) E Y (p / (1 - e)) (p / (1 + e)) = M at *
    have hd : 0 ≤ T ^ 2 - 4 * M := by nlinarith [sq_nonneg (T - 2)]
    have hsq := Real.sq_sqrt hd
    have hsd := Real.sqrt_nonneg (T ^ 2 - 4 * M)
    have hroots : ∀ t : ℝ, t ^ 2 - T * t + M = (t - (T + √(T ^ 2 - 4 * M)) / 2) * (t - (T - √(T ^ 2 - 4 * M)) / 2) := by
      intro t; linear_combination (1 / 4) * hsq
    refine ⟨(T + √(T ^ 2 - 4 * M)) / 2, (T - √(T ^ 2 - 4 * M)) / 2, ?_, by linarith, ?_⟩
    · intro t
      rw [R_vars, hqv, hroots]; ring
    · have h1 : 1 - T * 1 + M ≤ 0 := by linarith
      have h1' := hroots 1
      have hpos : 0 < (p / (1 + e)) ^ 2 - T * (p / (1 + e)) + M := by
        have : 0 < (1 - E ^ 2) * ((p / (1 + e)) ^ 2 - T * (p / (1 + e)) + M) := by linarith
        exact (pos_iff_pos_of_mul_pos this).mp (by linarith)
      have h2' := hroots (p / (1 + e))
      generalize √(T ^ 2 - 4 * M) = k at *
      generalize p / (1 + e) = s at *
      rw [h2'] at hpos
      by_contra hcon
      have hcon : s ≤ (T + k) / 2 := not_lt.mp hcon
      -- then both roots are above `s > 1`
      have h3 : s - (T - k) / 2 < 0 := by
        by_contra h
        have := mul_nonneg (show 0 ≤ (T + k) / 2 - s by linarith) (not_lt.mp h)
        linarith
      have := mul_pos_of_neg_of_neg (show 1 - (T + k) / 2 < 0 by linarith) (show 1 - (T - k) / 2 < 0 by linarith)
      nlinarith

section
variable {a e x p s : ℝ} (ha : 0 ≤ a) (ha1 : a < 1) (he : 0 ≤ e) (he1 : e < 1) (hl : -1 ≤ x) (hr : x ≤ 1)
include ha ha1 he he1 hl hr

/-- At and above the separatrix there is a limit of orbits, outside the horizon. -/
lemma exists_pre (hs : separatrix exampleRS a e x = .ok s) (hsp : s ≤ p) :
    (∃ E Y, EMono.Pre (a ^ 2) (a * x) (p / (1 - e)) (p / (1 + e)) E Y) ∧ 1 + √(1 - a ^ 2) < p / (1 + e) := by
  have hx : x ^ 2 ≤ 1 := by nlinarith
  have hA : a ^ 2 < 1 := by nlinarith
  have hb : (a * x) ^ 2 ≤ a ^ 2 := by rw [mul_pow]; exact mul_le_of_le_one_right (sq_nonneg a) hx
  have hm : 0 < 1 - e := by linarith
  have hpl : 0 < 1 + e := by linarith
  have ex : ∀ t, s < t → ∃ E Y, EMono.Orb (a ^ 2) (a * x) (t / (1 - e)) (t / (1 + e)) E Y
      ∧ 1 + √(1 - a ^ 2) < t / (1 + e) := by
    intro t ht
    obtain ⟨E, L, Q, hc⟩ := stableOrbit_iff.mp ((C16_exact exampleRS a t e x ha ha1 he he1 hl hr).1.mp
      (((C16_threshold exampleRS a e x).2.1 t s hs).mpr ht))
    obtain ⟨Y, o, -⟩ := StableConstants.orb ha ha1 he he1 hx hc
    exact ⟨E, Y, o, hc.1⟩
  choose! fE fY ho hhor using ex
  have cr : Tendsto (fun t : ℝ => t / (1 - e)) (𝓝[>] p) (𝓝 (p / (1 - e))) :=
    (tendsto_id.div_const _).mono_left nhdsWithin_le_nhds
  have cs : Tendsto (fun t : ℝ => t / (1 + e)) (𝓝[>] p) (𝓝 (p / (1 + e))) :=
    (tendsto_id.div_const _).mono_left nhdsWithin_le_nhds
  have hge : 1 + √(1 - a ^ 2) ≤ p / (1 + e) := by
    refine ge_of_tendsto cs ?_
    filter_upwards [self_mem_nhdsWithin] with t ht using (hhor t (lt_of_le_of_lt hsp ht)).le
  have hsn : 0 < √(1 - a ^ 2) := Real.sqrt_pos.mpr (by linarith)
  have hsq := Real.sq_sqrt (show 0 ≤ 1 - a ^ 2 by linarith)
  obtain ⟨U, hU, E, Y, -, -, hP⟩ := EMono.cluster (l := 𝓝[>] p) (A := a ^ 2) (b := a * x) (E := fE) (Y := fY) hb hA.le
    (r := fun t => t / (1 - e)) (s := fun t => t / (1 + e)) (by
      filter_upwards [self_mem_nhdsWithin] with t ht
      exact ⟨(ho t (lt_of_le_of_lt hsp ht)).pre, (ho t (lt_of_le_of_lt hsp ht)).hsr⟩) cr cs (by linarith)
  refine ⟨⟨E, Y, hP⟩, ?_⟩
  have hp0 : 0 < p := by
    have : 0 < p / (1 + e) := by linarith
    exact (div_pos_iff_of_pos_right hpl).mp this
  have hsr : p / (1 + e) ≤ p / (1 - e) := div_le_div_of_nonneg_left hp0.le hm (by linarith)
  have hD : 0 < EMono.D (a ^ 2) (p / (1 + e)) := hP.outside hb (by linarith) hsr (by
    unfold EMono.D; nlinarith)
  refine lt_of_le_of_ne hge fun h => ?_
  rw [← h] at hD
  unfold EMono.D at hD
  nlinarith

/-- On the separatrix the inner turning point is a double root. -/
lemma pre_marginal {E Y : ℝ} (hs : separatrix exampleRS a e x = .ok p)
    (o : EMono.Pre (a ^ 2) (a * x) (p / (1 - e)) (p / (1 + e)) E Y) :
    EMono.q (a ^ 2) (a * x) E Y (p / (1 - e)) (p / (1 + e)) (p / (1 + e)) = 0 ∧ 0 < EMono.D (a ^ 2) (p / (1 + e)) := by
  have hx : x ^ 2 ≤ 1 := by nlinarith
  have hA : a ^ 2 < 1 := by nlinarith
  have hb : (a * x) ^ 2 ≤ a ^ 2 := by rw [mul_pow]; exact mul_le_of_le_one_right (sq_nonneg a) hx
  have hm : 0 < 1 - e := by linarith
  have hpl : 0 < 1 + e := by linarith
  have hhor := (exists_pre ha ha1 he he1 hl hr hs le_rfl).2
  have hsn : 0 < √(1 - a ^ 2) := Real.sqrt_pos.mpr (by linarith)
  have hsq := Real.sq_sqrt (show 0 ≤ 1 - a ^ 2 by linarith)
  have hD : 0 < EMono.D (a ^ 2) (p / (1 + e)) := by unfold EMono.D; nlinarith
  refine ⟨?_, hD⟩
  by_contra h0
  have hp0 : 0 < p := by
    have : 0 < p / (1 + e) := by linarith
    exact (div_pos_iff_of_pos_right hpl).mp this
  have hsr : p / (1 + e) ≤ p / (1 - e) := div_le_div_of_nonneg_left hp0.le hm (by linarith)
  have hO := o.orb_of_simple hb hA.le (by linarith) hsr hD h0
  have hst := stableOrbit_iff.mpr ⟨_, _, _, StableConstants.of_orb ha ha1 hx hhor hO⟩
  have := ((C16_threshold exampleRS a e x).2.1 p p hs).mp ((C16_exact exampleRS a p e x ha ha1 he he1 hl hr).1.mpr hst)
  exact lt_irrefl _ this

end

/-- the turning points of orbits of different eccentricity -/
lemma ecc_div {p e t : ℝ} (hp : 0 < p) (he1 : e < 1) (he : 0 ≤ e) (ht1 : t < 1) (ht : 0 ≤ t) :
    p / (1 - t) - p / (1 - e) = p / (1 - e) * (p / (1 - t)) * ((t - e) / p)
    ∧ p / (1 + e) - p / (1 + t) = p / (1 + e) * (p / (1 + t)) * ((t - e) / p) := by
  have h1 : 1 - t ≠ 0 := by linarith
  have h2 : 1 - e ≠ 0 := by linarith
  have h3 : 1 + t ≠ 0 := by linarith
  have h4 : 1 + e ≠ 0 := by linarith
  constructor <;> (field_simp; ring)

/-- A continuous function that increases inside an interval increases up to its ends. -/
lemma mono_ends {g : ℝ → ℝ} {c d : ℝ} (hc : ContinuousOn g (Set.Icc c d))
    (h : ∀ u v, c < u → u < v → v < d → g u < g v) : StrictMonoOn g (Set.Icc c d) := by
  have left : ∀ u w, c ≤ u → u < w → w < d → g u ≤ g w := by
    intro u w h1 h2 h3
    have ht : Tendsto g (𝓝[>] u) (𝓝 (g u)) :=
      (hc u ⟨h1, by linarith⟩).mono_of_mem_nhdsWithin (Icc_mem_nhdsGT_of_mem ⟨h1, by linarith⟩)
    refine le_of_tendsto ht ?_
    filter_upwards [self_mem_nhdsWithin, mem_nhdsWithin_of_mem_nhds (gt_mem_nhds h2)] with t k1 k2
    exact (h t w (lt_of_le_of_lt h1 k1) k2 h3).le
  have right : ∀ w v, c < w → w < v → v ≤ d → g w ≤ g v := by
    intro w v h1 h2 h3
    have ht : Tendsto g (𝓝[<] v) (𝓝 (g v)) :=
      (hc v ⟨by linarith, h3⟩).mono_of_mem_nhdsWithin (Icc_mem_nhdsLT_of_mem ⟨by linarith, h3⟩)
    refine ge_of_tendsto ht ?_
    filter_upwards [self_mem_nhdsWithin, mem_nhdsWithin_of_mem_nhds (lt_mem_nhds h2)] with t k1 k2
    exact (h w t h1 k2 (lt_of_lt_of_le k1 h3)).le
  intro u hu v hv huv
  have k1 := left u (u + (v - u) / 3) hu.1 (by linarith) (by linarith [hv.2])
  have k2 := right (u + 2 * (v - u) / 3) v (by linarith [hu.1]) (by linarith) hv.2
  have k3 := h (u + (v - u) / 3) (u + 2 * (v - u) / 3) (by linarith [hu.1]) (by linarith) (by linarith [hv.2])
  linarith

/-- The separatrix increases with the eccentricity. -/
lemma sep_mono {a x : ℝ} (ha : 0 ≤ a) (ha1 : a < 1) (hl : -1 ≤ x) (hr : x ≤ 1) :
    ∃ g : ℝ → ℝ, StrictMonoOn g (Set.Icc 0 1) ∧ ContinuousOn g (Set.Icc 0 1)
      ∧ ∀ rs, ∀ e ∈ Set.Icc (0:ℝ) 1, separatrix rs a e x = .ok (g e) := by
  obtain ⟨f, hf, hc⟩ := C15_continuous
  have hmem : ∀ t ∈ Set.Icc (0:ℝ) 1, (a, t, x) ∈ Spec.SeparatrixDomain := fun t ht => ⟨⟨ha, ha1⟩, ⟨ht.1, ht.2⟩, hl, hr⟩
  have hcont : ContinuousOn (fun t => f (a, t, x)) (Set.Icc 0 1) := hc.comp (by fun_prop) hmem
  refine ⟨fun t => f (a, t, x), ?_, hcont, fun rs e he => hf rs a e x (hmem e he)⟩
  have hx : x ^ 2 ≤ 1 := by nlinarith
  have hA : a ^ 2 < 1 := by nlinarith
  have hb : (a * x) ^ 2 ≤ a ^ 2 := by rw [mul_pow]; exact mul_le_of_le_one_right (sq_nonneg a) hx
  obtain ⟨g, hg⟩ : ∃ g : ℝ → ℝ, g = fun t => f (a, t, x) := ⟨_, rfl⟩
  have hval : ∀ t ∈ Set.Icc (0:ℝ) 1, separatrix exampleRS a t x = .ok (g t) := fun t ht => by
    rw [hg]; exact hf _ a t x (hmem t ht)
  rw [← hg] at hcont ⊢
  refine mono_ends hcont fun u v hu huv hv => ?_
  by_contra hcon
  have hcon : g v ≤ g u := not_lt.mp hcon
  -- a maximum that is not the right end
  obtain ⟨m, hm, hm1, hmax⟩ : ∃ m, u ≤ m ∧ m < v ∧ ∀ t ∈ Set.Icc u v, g t ≤ g m := by
    obtain ⟨m, hm, hmax⟩ := isCompact_Icc.exists_isMaxOn (Set.nonempty_Icc.mpr huv.le)
      (hcont.mono (Set.Icc_subset_Icc hu.le hv.le))
    rcases eq_or_lt_of_le hm.2 with h | h
    · refine ⟨u, le_rfl, huv, fun t ht => ?_⟩
      have : g t ≤ g m := hmax ht
      rw [h] at this
      linarith
    · exact ⟨m, hm.1, h, fun t ht => hmax ht⟩
  have hm0 : 0 < m := by linarith
  have hmv : m < 1 := by linarith
  have hmI : m ∈ Set.Icc (0:ℝ) 1 := ⟨hm0.le, hmv.le⟩
  obtain ⟨-, hhor⟩ := exists_pre ha ha1 hm0.le hmv hl hr (hval m hmI) le_rfl
  obtain ⟨p, hp⟩ : ∃ p, p = g m := ⟨_, rfl⟩
  rw [← hp] at hhor hmax
  have hsn := Real.sqrt_nonneg (1 - a ^ 2)
  have hp0 : 0 < p := by
    have : 0 < p / (1 + m) := by linarith
    exact (div_pos_iff_of_pos_right (by linarith)).mp this
  have ex : ∀ t, t ∈ Set.Icc m v → ∃ E Y, EMono.Pre (a ^ 2) (a * x) (p / (1 - t)) (p / (1 + t)) E Y := fun t ht =>
    (exists_pre ha ha1 (hm0.le.trans ht.1) (lt_of_le_of_lt ht.2 hv) hl hr
      (hval t ⟨hm0.le.trans ht.1, ht.2.trans hv.le⟩) (hmax t ⟨hm.trans ht.1, ht.2⟩)).1
  choose! fE fY ho using ex
  have cr : Tendsto (fun t : ℝ => p / (1 - t)) (𝓝[>] m) (𝓝 (p / (1 - m))) :=
    (tendsto_const_nhds.div (tendsto_id.const_sub 1) (show 1 - m ≠ 0 by linarith)).mono_left nhdsWithin_le_nhds
  have cs : Tendsto (fun t : ℝ => p / (1 + t)) (𝓝[>] m) (𝓝 (p / (1 + m))) :=
    (tendsto_const_nhds.div (tendsto_id.const_add 1) (show 1 + m ≠ 0 by linarith)).mono_left nhdsWithin_le_nhds
  have hev : ∀ᶠ t in 𝓝[>] m, t ∈ Set.Ioo m v := Ioo_mem_nhdsGT hm1
  have hord : ∀ t, 0 < t → t < 1 → p / (1 + t) < p / (1 - t) := fun t h0 h1 =>
    div_lt_div_of_pos_left hp0 (by linarith) (by linarith)
  obtain ⟨U, hU, E, Y, hE, hY, hP⟩ := EMono.cluster (l := 𝓝[>] m) (A := a ^ 2) (b := a * x) (E := fE) (Y := fY) hb hA.le
    (r := fun t => p / (1 - t)) (s := fun t => p / (1 + t)) (by
      filter_upwards [hev] with t ht
      exact ⟨ho t ⟨ht.1.le, ht.2.le⟩, (hord t (hm0.trans ht.1) (ht.2.trans hv)).le⟩) cr cs (by linarith)
  obtain ⟨h0, hD⟩ := pre_marginal ha ha1 hm0.le hmv hl hr (by rw [hp]; exact hval m hmI) hP
  refine EMono.marginal_step (l := (U : Filter ℝ)) (d := fun t => (t - m) / p) hb hA.le hP (by linarith)
    (hord m hm0 hmv) hD h0 (r := fun t => p / (1 - t)) (s := fun t => p / (1 + t)) ?_
    (cr.mono_left hU) (cs.mono_left hU) hE hY
  refine hU ?_
  filter_upwards [hev] with t ht
  obtain ⟨d1, d2⟩ := ecc_div hp0 hmv hm0.le (ht.2.trans hv) (hm0.trans ht.1).le
  exact ⟨ho t ⟨ht.1.le, ht.2.le⟩, div_pos (by linarith [ht.1]) hp0, d1, d2⟩

/-- **C67.** The separatrix strictly increases with the eccentricity, at every spin and inclination, from circular to
parabolic orbits: of two orbits with the same semi-latus rectum and inclination the rounder one is stable whenever the
other one is, and there are semi-latera recta at which only the rounder one is. -/
theorem C67_separatrix (rs : RootScalar) (a e e' x : ℝ) (ha : 0 ≤ a) (ha1 : a < 1) (he : 0 ≤ e) (hee : e < e')
    (he1 : e' ≤ 1) (hl : -1 ≤ x) (hr : x ≤ 1) :
    (∃ s s', separatrix rs a e x = .ok s ∧ separatrix rs a e' x = .ok s' ∧ s < s')
    ∧ (∀ p, isStable rs a p e' x = .ok true → isStable rs a p e x = .ok true)
    ∧ ∃ p, isStable rs a p e x = .ok true ∧ isStable rs a p e' x = .ok false := by
  obtain ⟨g, hg, -, hs⟩ := sep_mono ha ha1 hl hr
  have m : e ∈ Set.Icc (0:ℝ) 1 := ⟨he, by linarith⟩
  have m' : e' ∈ Set.Icc (0:ℝ) 1 := ⟨by linarith, he1⟩
  have hlt := hg m m' hee
  have h1 := hs rs e m
  have h2 := hs rs e' m'
  refine ⟨⟨_, _, h1, h2, hlt⟩, fun p hp => ?_, g e', ?_, ?_⟩
  · rw [(C16_threshold rs a e x).2.1 p _ h1]
    rw [(C16_threshold rs a e' x).2.1 p _ h2] at hp
    linarith
  · rw [(C16_threshold rs a e x).2.1 _ _ h1]; exact hlt
  · obtain ⟨b, hb⟩ := (C16_contract rs a (g e') e' x).1.mpr ⟨⟨ha, ha1⟩, ⟨m'.1, he1⟩, hl, hr⟩
    cases b
    · exact hb
    · rw [(C16_threshold rs a e' x).2.1 _ _ h2] at hb
      exact absurd hb (lt_irrefl _)

/-- **C67 (objects).** An accepted orbit stays accepted when its eccentricity is lowered. -/
theorem C67_bound (rs : RootScalar) (a p e e' x : ℝ) (he : 0 ≤ e) (hee : e ≤ e') (h : Spec.BoundOrbit rs a p e' x) :
    Spec.BoundOrbit rs a p e x := by
  rcases eq_or_lt_of_le hee with rfl | hlt
  · exact h
  obtain ⟨h1, h2, h3, s, hs, hsp⟩ := h
  have hX := abs_le.mp (by rw [abs_signedX]; exact h3 : |Spec.signedX a x| ≤ 1)
  obtain ⟨⟨t, t', k1, k2, k3⟩, -⟩ := C67_separatrix rs |a| e e' (Spec.signedX a x) (abs_nonneg a) h1 he hlt h2.2 hX.1 hX.2
  obtain rfl : s = t' := Except.ok.inj (hs.symm.trans k2)
  exact ⟨h1, ⟨he, by linarith [h2.2]⟩, h3, t, k1, k3.trans hsp⟩

section
variable {a p e e' x E L Q E' L' Q' : ℝ} (ha : 0 ≤ a) (ha1 : a < 1) (he : 0 ≤ e) (he1 : e' < 1) (hl : -1 ≤ x) (hr : x ≤ 1)
include ha ha1 he he1 hl hr

/-- More eccentric orbits. -/
lemma order_e (hee : e < e') (h : Spec.StableConstants a p e x E L Q) (h' : Spec.StableConstants a p e' x E' L' Q') :
    E < E' ∧ (x ≠ 0 → |L| < |L'|) ∧ (x ^ 2 ≠ 1 → Q < Q') := by
  have hx : x ^ 2 ≤ 1 := by nlinarith
  obtain ⟨g, hg, -, hs⟩ := sep_mono ha ha1 hl hr
  have he0' : 0 ≤ e' := by linarith
  have mem : ∀ t ∈ Set.Icc 0 e', t ∈ Set.Icc (0:ℝ) 1 := fun t ht => ⟨ht.1, ht.2.trans he1.le⟩
  have stab : ∀ t ∈ Set.Icc 0 e', g t < p ↔ Spec.StableOrbit a p t x := fun t ht =>
    ((C16_threshold exampleRS a t x).2.1 p _ (hs exampleRS t (mem t ht))).symm.trans
      (C16_exact exampleRS a p t x ha ha1 ht.1 (lt_of_le_of_lt ht.2 he1) hl hr).1
  have hsp' : g e' < p := (stab e' ⟨he0', le_rfl⟩).mpr (stableOrbit_iff.mpr ⟨_, _, _, h'⟩)
  have hsp : ∀ t ∈ Set.Icc 0 e', g t < p := fun t ht =>
    lt_of_le_of_lt (hg.monotoneOn (mem t ht) (mem e' ⟨he0', le_rfl⟩) ht.2) hsp'
  have hv : ∀ t ∈ Set.Icc 0 e', IsSeparatrixValue a t x (g t) := by
    intro t ht
    obtain ⟨s, k1, k2⟩ := C15_separatrix_returns exampleRS a t x ha ha1 ht.1 (mem t ht).2 hl hr
    rw [hs exampleRS t (mem t ht)] at k1
    rw [Except.ok.inj k1]; exact k2
  have ex : ∀ t, t ∈ Set.Icc 0 e' → ∃ E Y, EMono.Orb (a ^ 2) (a * x) (p / (1 - t)) (p / (1 + t)) E Y
      ∧ 1 + √(1 - a ^ 2) < p / (1 + t) := by
    intro t ht
    obtain ⟨E, L, Q, hc⟩ := stableOrbit_iff.mp ((stab t ht).mp (hsp t ht))
    obtain ⟨Y, o, -⟩ := StableConstants.orb ha ha1 ht.1 (lt_of_le_of_lt ht.2 he1) hx hc
    exact ⟨E, Y, o, hc.1⟩
  choose! fE fY ho hhor using ex
  have hsn := Real.sqrt_nonneg (1 - a ^ 2)
  have hp0 : 0 < p := by
    have : 0 < p / (1 + e') := by linarith [hhor e' ⟨he0', le_rfl⟩]
    exact (div_pos_iff_of_pos_right (by linarith)).mp this
  have cr : ∀ t ∈ Set.Icc 0 e', Tendsto (fun t : ℝ => p / (1 - t)) (𝓝[Set.Icc 0 e'] t) (𝓝 (p / (1 - t))) := fun t ht =>
    (tendsto_const_nhds.div (tendsto_id.const_sub 1) (show 1 - t ≠ 0 by linarith [ht.2])).mono_left nhdsWithin_le_nhds
  have cs : ∀ t ∈ Set.Icc 0 e', Tendsto (fun t : ℝ => p / (1 + t)) (𝓝[Set.Icc 0 e'] t) (𝓝 (p / (1 + t))) := fun t ht =>
    (tendsto_const_nhds.div (tendsto_id.const_add 1) (show 1 + t ≠ 0 by linarith [ht.1])).mono_left nhdsWithin_le_nhds
  have cont : ∀ t ∈ Set.Icc 0 e', Tendsto fE (𝓝[Set.Icc 0 e'] t) (𝓝 (fE t)) ∧ Tendsto fY (𝓝[Set.Icc 0 e'] t) (𝓝 (fY t)) := by
    intro t ht
    have := hhor t ht
    refine EMono.limit (A := a ^ 2) (b := fun _ => a * x) (b₀ := a * x) ?_ tendsto_const_nhds (cr t ht) (cs t ht)
      (by linarith) (ho t ht).hsr ?_
    · filter_upwards [self_mem_nhdsWithin] with t' h' using ho t' h'
    · intro E' Y' h'
      exact pre_unique ha ha1 ht.1 (lt_of_le_of_lt ht.2 he1) hl hr (hv t ht) (hsp t ht) (hhor t ht) (ho t ht) h'
  have cE : ContinuousOn fE (Set.Icc 0 e') := fun t ht => (cont t ht).1
  have cY : ContinuousOn fY (Set.Icc 0 e') := fun t ht => (cont t ht).2
  have loc : ∀ t ∈ Set.Ioo 0 e', ∀ᶠ t' in 𝓝[>] t, fE t < fE t' ∧ fY t < fY t'
      ∧ fY t ^ 2 - a ^ 2 * fE t ^ 2 < fY t' ^ 2 - a ^ 2 * fE t' ^ 2 := by
    intro t ht
    have htI : t ∈ Set.Icc 0 e' := ⟨ht.1.le, ht.2.le⟩
    have hle : 𝓝[>] t ≤ 𝓝[Set.Icc 0 e'] t :=
      nhdsWithin_le_of_mem (Icc_mem_nhdsGT_of_mem ⟨ht.1.le, ht.2⟩)
    have := hhor t htI
    refine EMono.local_ecc (d := fun t' => (t' - t) / p) (r := fun t => p / (1 - t)) (s := fun t => p / (1 + t))
      (ho t htI) (by linarith) (div_lt_div_of_pos_left hp0 (by linarith [ht.2]) (by linarith [ht.1])) ?_
      ((cr t htI).mono_left hle) ((cs t htI).mono_left hle) ((cont t htI).1.mono_left hle) ((cont t htI).2.mono_left hle)
    filter_upwards [Ioo_mem_nhdsGT ht.2] with t' ht'
    obtain ⟨d1, d2⟩ := ecc_div hp0 (ht.2.trans he1) ht.1.le (ht'.2.trans he1) (ht.1.trans ht'.1).le
    exact ⟨ho t' ⟨(ht.1.trans ht'.1).le, ht'.2.le⟩, div_pos (by linarith [ht'.1]) hp0, d1, d2⟩
  have mono : ∀ f : ℝ → ℝ, ContinuousOn f (Set.Icc 0 e') → (∀ t ∈ Set.Ioo 0 e', ∀ᶠ t' in 𝓝[>] t, f t < f t') →
      StrictMonoOn f (Set.Icc 0 e') := by
    intro f hf hloc
    refine mono_ends hf fun u v hu huv hv => ?_
    exact EMono.lt_of_local huv (hf.mono (Set.Icc_subset_Icc hu.le hv.le)) fun t ht =>
      hloc t ⟨lt_of_lt_of_le hu ht.1, ht.2.trans hv⟩
  have me : e ∈ Set.Icc 0 e' := ⟨he, hee.le⟩
  have me' : e' ∈ Set.Icc 0 e' := ⟨he0', le_rfl⟩
  have m1 := mono fE cE (fun t ht => (loc t ht).mono fun _ h => h.1) me me' hee
  have m2 := mono fY cY (fun t ht => (loc t ht).mono fun _ h => h.2.1) me me' hee
  have m3 := mono (fun t => fY t ^ 2 - a ^ 2 * fE t ^ 2) ((cY.pow 2).sub (continuousOn_const.mul (cE.pow 2)))
    (fun t ht => (loc t ht).mono fun _ h => h.2.2) me me' hee
  simp only at m3
  obtain ⟨Y, o, rfl, rfl⟩ := StableConstants.orb ha ha1 he (by linarith) hx h
  obtain ⟨Y', o', rfl, rfl⟩ := StableConstants.orb ha ha1 he0' he1 hx h'
  obtain ⟨rfl, rfl⟩ := pre_unique ha ha1 he (by linarith) hl hr (hv e me) (hsp e me) h.1 (ho e me) o.pre
  obtain ⟨rfl, rfl⟩ := pre_unique ha ha1 he0' he1 hl hr (hv e' me') (hsp e' me') h'.1 (ho e' me') o'.pre
  refine ⟨m1, fun hx0 => ?_, fun hx1 => ?_⟩
  · rw [abs_mul, abs_mul, abs_of_pos o.hY, abs_of_pos o'.hY]
    exact mul_lt_mul_of_pos_left m2 (abs_pos.mpr hx0)
  · exact mul_lt_mul_of_pos_left (by linarith) (by have := lt_of_le_of_ne hx hx1; linarith)

end

/-- **C68.** More eccentric orbits of the same semi-latus rectum and inclination: `constants_of_motion` returns a larger
energy, a larger angular momentum (in absolute value, unless the orbit is polar) and a larger Carter constant (unless the
orbit is equatorial).  All rounder orbits are accepted with the given one.  For prograde orbits with `p ≤ 4` the divisors
of the code's formulas are assumed not to vanish at the two orbits compared (not in between). -/
theorem C68_more_eccentric (rs : RootScalar) (a p e e' x : ℝ) (he : 0 ≤ e) (hee : e < e') (he1 : e' < 1)
    (h' : Spec.BoundOrbit rs a p e' x)
    (hd : 0 < Spec.signedX a x → p ≤ 4 → Spec.DivisorsNonzero a p e x)
    (hd' : 0 < Spec.signedX a x → p ≤ 4 → Spec.DivisorsNonzero a p e' x) :
    Spec.BoundOrbit rs a p e x
    ∧ ∃ E L Q E' L' Q', constantsOfMotion rs a p e x = .ok (E, L, Q) ∧ constantsOfMotion rs a p e' x = .ok (E', L', Q')
      ∧ E < E' ∧ (x ≠ 0 → |L| < |L'|) ∧ (|x| ≠ 1 → Q < Q') := by
  have h := C67_bound rs a p e e' x he hee.le h'
  refine ⟨h, ?_⟩
  obtain ⟨b, hc, d⟩ := bound_std h
  obtain ⟨b', hc', d'⟩ := bound_std h'
  obtain ⟨E, L, Q, c, hs⟩ := constants_stable b (abs_nonneg a) (by linarith) fun h1 h2 => d.mpr (hd h1 h2)
  obtain ⟨E', L', Q', c', hs'⟩ := constants_stable b' (abs_nonneg a) he1 fun h1 h2 => d'.mpr (hd' h1 h2)
  rw [hc] at c
  rw [hc'] at c'
  have hX := abs_le.mp (by rw [abs_signedX]; exact h.2.2.1 : |Spec.signedX a x| ≤ 1)
  obtain ⟨o1, o2, o3⟩ := order_e (abs_nonneg a) h.1 he he1 hX.1 hX.2 hee hs hs'
  refine ⟨E, L, Q, E', L', Q', c, c', o1, fun hx => o2 ((signedX_eq_zero a x).not.mpr hx), fun hx => o3 fun h1 => hx ?_⟩
  have : |Spec.signedX a x| ^ 2 = 1 := by rw [sq_abs]; exact h1
  rw [abs_signedX] at this
  have h0 := abs_nonneg x
  nlinarith

/-- **C68** (the orbits themselves, without any assumption on the code's divisors): below a stable orbit there is, for
every smaller eccentricity, a stable orbit with the same semi-latus rectum and inclination, and its constants are
smaller. -/
theorem C68_orbits (a p e e' x E' L' Q' : ℝ) (ha : 0 ≤ a) (ha1 : a < 1) (he : 0 ≤ e) (hee : e < e') (he1 : e' < 1)
    (hx : |x| ≤ 1) (h' : Spec.StableConstants a p e' x E' L' Q') :
    ∃ E L Q, Spec.StableConstants a p e x E L Q ∧ E < E' ∧ (x ≠ 0 → |L| < |L'|) ∧ (|x| ≠ 1 → Q < Q') := by
  have hX := abs_le.mp hx
  have hst : Spec.StableOrbit a p e x := (C16_exact exampleRS a p e x ha ha1 he (by linarith) hX.1 hX.2).1.mp
    ((C67_separatrix exampleRS a e e' x ha ha1 he hee he1.le hX.1 hX.2).2.1 p
      ((C16_exact exampleRS a p e' x ha ha1 (by linarith) he1 hX.1 hX.2).1.mpr (stableOrbit_iff.mpr ⟨_, _, _, h'⟩)))
  obtain ⟨E, L, Q, h⟩ := stableOrbit_iff.mp hst
  obtain ⟨o1, o2, o3⟩ := order_e ha ha1 he he1 hX.1 hX.2 hee h h'
  refine ⟨E, L, Q, h, o1, o2, fun hx1 => o3 fun h1 => hx1 ?_⟩
  have : |x| ^ 2 = 1 := by rw [sq_abs]; exact h1
  have h0 := abs_nonneg x
  nlinarith

/-- Non-vacuity of C67 and C68: inclined orbits around a spinning hole, and a hole with negative spin. -/
example (rs : RootScalar) : (∃ s s', separatrix rs (9 / 10) 0 (1 / 3) = .ok s ∧ separatrix rs (9 / 10) 1 (1 / 3) = .ok s'
      ∧ s < s')
    ∧ (∃ E L Q E' L' Q', constantsOfMotion rs (9 / 10) 13 0 (1 / 3) = .ok (E, L, Q)
      ∧ constantsOfMotion rs (9 / 10) 13 (1 / 2) (1 / 3) = .ok (E', L', Q') ∧ E < E' ∧ |L| < |L'| ∧ Q < Q')
    ∧ ∃ E L Q E' L' Q', constantsOfMotion rs (-9 / 10) 13 (1 / 4) 1 = .ok (E, L, Q)
      ∧ constantsOfMotion rs (-9 / 10) 13 (1 / 2) 1 = .ok (E', L', Q') ∧ E < E' ∧ |L| < |L'| := by
  refine ⟨(C67_separatrix rs (9 / 10) 0 1 (1 / 3) (by norm_num) (by norm_num) le_rfl (by norm_num) le_rfl (by norm_num)
    (by norm_num)).1, ?_, ?_⟩
  · have hb : Spec.BoundOrbit rs (9 / 10) 13 (1 / 2) (1 / 3) :=
      C11_accepts_wide rs _ _ _ _ (by rw [abs_of_pos] <;> norm_num) (by norm_num) (by norm_num)
        (by rw [abs_of_pos] <;> norm_num) (by norm_num)
    obtain ⟨-, E, L, Q, E', L', Q', h1, h2, h3, h4, h5⟩ := C68_more_eccentric rs (9 / 10) 13 0 (1 / 2) (1 / 3) le_rfl
      (by norm_num) (by norm_num) hb (fun _ h => absurd h (by norm_num)) (fun _ h => absurd h (by norm_num))
    exact ⟨E, L, Q, E', L', Q', h1, h2, h3, h4 (by norm_num), h5 (by rw [abs_of_pos] <;> norm_num)⟩
  · have hb : Spec.BoundOrbit rs (-9 / 10) 13 (1 / 2) 1 :=
      C11_accepts_wide rs _ _ _ _ (by rw [abs_of_neg] <;> norm_num) (by norm_num) (by norm_num)
        (by norm_num) (by norm_num)
    obtain ⟨-, E, L, Q, E', L', Q', h1, h2, h3, h4, -⟩ := C68_more_eccentric rs (-9 / 10) 13 (1 / 4) (1 / 2) 1
      (by norm_num) (by norm_num) (by norm_num) hb (fun _ h => absurd h (by norm_num))
      (fun _ h => absurd h (by norm_num))
    exact ⟨E, L, Q, E', L', Q', h1, h2, h3, h4 (by norm_num)⟩

end KGP
