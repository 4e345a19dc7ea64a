import Verif.Lemmas.EnergyMono
import Mathlib.Topology.Compactness.Compact

/-!
# Paths of bound orbits

Orbits run into the future; limits of orbits; the Carter constant along a path.
-/

namespace KGP.EMono

open Set Filter Topology

/-- What remains of an orbit in the limit. -/
structure Pre (A b r s E Y : ℝ) : Prop where
  hE : 0 ≤ E
  hE1 : E ≤ 1
  hY : 0 ≤ Y
  root : R A b E Y r = 0
  root' : DR A b E Y r s = 0
  hPr : 0 ≤ E * (r ^ 2 + A) - b * Y
  hPs : 0 ≤ E * (s ^ 2 + A) - b * Y
  sum : (1 - E ^ 2) * (r + s + 1) ≤ 2
  hq : ∀ t, s ≤ t → q A b E Y r s t ≤ 0

lemma Orb.pre {A b r s E Y : ℝ} (o : Orb A b r s E Y) : Pre A b r s E Y :=
  ⟨o.hE.le, o.hE1.le, o.hY.le, o.root, o.root', o.hPr.le, o.hPs.le, o.sum, fun t ht => (o.hq t ht).le⟩

/-- A number on which a decreasing parabola is never positive. -/
lemma not_line {s c d : ℝ} (hc : 0 < c) (h : ∀ t, s ≤ t → c * t + d ≤ 0) : False := by
  have h1 := h (max s ((1 - d) / c)) (le_max_left _ _)
  have h2 : c * ((1 - d) / c) ≤ c * max s ((1 - d) / c) := mul_le_mul_of_nonneg_left (le_max_right _ _) hc.le
  rw [mul_div_cancel₀ _ hc.ne'] at h2
  linarith

namespace Pre

variable {A b r s E Y : ℝ} (o : Pre A b r s E Y) (hb : b ^ 2 ≤ A) (hA : A ≤ 1) (hs : 1 ≤ s) (hsr : s ≤ r) (hD : 0 < D A s)
include o

lemma E_lt : E < 1 := by
  rcases eq_or_lt_of_le o.hE1 with h | h
  · exfalso
    have hq := o.hq
    subst h
    refine not_line (s := s) (c := 2) (d := -(A * (A - b ^ 2) * (1 - 1 ^ 2) / (r * s)) - (A - b ^ 2) * Y ^ 2 / (r * s))
      two_pos (fun t ht => ?_)
    have := hq t ht
    unfold q at this
    linarith
  · exact h

lemma E2 : E ^ 2 < 1 := by
  have := o.hE; have := o.E_lt; nlinarith

include hb hA hs hsr

lemma E_pos (hD : 0 < D A s) : 0 < E := by
  have h := Orb.above_aux hb hA (hs.trans hsr) hs o.E2 (by have := o.sum; linarith)
  rcases eq_or_lt_of_le o.hE with h0 | h0
  · rw [← h0] at h
    norm_num at h
    linarith
  · exact h0

lemma P_pos {t : ℝ} (ht : 1 ≤ t) (hD : 0 < D A t) (hP : 0 ≤ E * (t ^ 2 + A) - b * Y) (hR : R A b E Y t = 0) :
    0 < E * (t ^ 2 + A) - b * Y := by
  rcases eq_or_lt_of_le hP with h | h
  · exfalso
    unfold R at hR
    rw [← h] at hR
    have : 0 < t ^ 2 + A - b ^ 2 + (Y - b * E) ^ 2 := by nlinarith [sq_nonneg (Y - b * E)]
    nlinarith [mul_pos hD this]
  · exact h

include hD

lemma D_pos : 0 < D A r := by unfold D at *; nlinarith

lemma root_s : R A b E Y s = 0 := by
  have := R_sub A b E Y r s
  rw [o.root, o.root', mul_zero] at this
  linarith

lemma Y_pos : 0 < Y := by
  rcases eq_or_lt_of_le o.hY with h | h
  · exfalso
    have hE := o.E_pos hb hA hs hsr hD
    have hab := Orb.above_aux hb hA (hs.trans hsr) hs o.E2 (by have := o.sum; linarith)
    have hR := o.root_s hb hA hs hsr hD
    have hk : 0 < s ^ 2 + A - b ^ 2 := by nlinarith
    rcases lt_trichotomy b 0 with h0 | h0 | h0
    · have hV : b * E < Y := by rw [← h]; exact mul_neg_of_neg_of_pos h0 hE
      have := (Orb.signs_aux hE o.E_lt hD hb hs hA
        (o.P_pos hb hA hs hsr hs hD o.hPs hR) hV hR hab).1
      rw [← h] at this
      have e : be A b E 0 s = b * E * (2 * s) := by unfold be D; ring
      rw [e] at this
      have : b * E * (2 * s) < 0 := mul_neg_of_neg_of_pos (mul_neg_of_neg_of_pos h0 hE) (by linarith)
      linarith
    · rw [← h, h0] at hR
      rw [h0] at hab hk
      have : R A 0 E 0 s = (s ^ 2 + A - 0 ^ 2) * (E ^ 2 * (s ^ 2 + A - 0 ^ 2) - D A s) := by unfold R; ring
      rw [this] at hR
      have := mul_pos hk (sub_pos.mpr hab)
      linarith
    · -- `b > 0`: the same as `V_neg_aux`
      rw [← h] at hR
      have e : R A b E 0 s = E ^ 2 * ((s ^ 2 + A) ^ 2 - b ^ 2 * D A s) - D A s * (s ^ 2 + A - b ^ 2) := by
        unfold R; ring
      rw [e] at hR
      have h1 : D A s * (s ^ 2 + A - b ^ 2) < E ^ 2 * (s ^ 2 + A - b ^ 2) * (s ^ 2 + A - b ^ 2) :=
        mul_lt_mul_of_pos_right hab hk
      have h2 : (s ^ 2 + A - b ^ 2) ^ 2 ≤ (s ^ 2 + A) ^ 2 - b ^ 2 * D A s := by
        unfold D
        have : 0 ≤ b ^ 2 * (s ^ 2 + 2 * s + A - b ^ 2) := mul_nonneg (sq_nonneg b) (by nlinarith)
        nlinarith
      have h3 := mul_le_mul_of_nonneg_left h2 (sq_nonneg E)
      nlinarith
  · exact h

/-- All but the strict inequality for the third root. -/
lemma orb (hq : ∀ t, s ≤ t → q A b E Y r s t < 0) : Orb A b r s E Y where
  hb := hb
  hA := hA
  hs := hs
  hsr := hsr
  hE := o.E_pos hb hA hs hsr hD
  hE1 := o.E_lt
  hY := o.Y_pos hb hA hs hsr hD
  root := o.root
  root' := o.root'
  hPr := o.P_pos hb hA hs hsr (hs.trans hsr) (o.D_pos hb hA hs hsr hD) o.hPr o.root
  hPs := o.P_pos hb hA hs hsr hs hD o.hPs (o.root_s hb hA hs hsr hD)
  hD := hD
  sum := o.sum
  hq := hq

end Pre

/-- **Orbits run into the future**: both values of `E (r² + a²) - a L` are positive if they have one sign. -/
lemma future {A b r s E Y : ℝ} (hb : b ^ 2 ≤ A) (hA : A ≤ 1) (hs : 1 ≤ s) (hsr : s ≤ r) (hD : 0 < D A s)
    (hE : 0 < E) (hE1 : E < 1) (hY : 0 < Y) (root : R A b E Y r = 0) (root' : DR A b E Y r s = 0)
    (sum : (1 - E ^ 2) * (r + s + 1) ≤ 2)
    (hPP : 0 < (E * (r ^ 2 + A) - b * Y) * (E * (s ^ 2 + A) - b * Y)) :
    0 < E * (r ^ 2 + A) - b * Y ∧ 0 < E * (s ^ 2 + A) - b * Y := by
  have hr : 0 < E * (r ^ 2 + A) - b * Y := by
    have hA0 : 0 ≤ A := (sq_nonneg b).trans hb
    rcases le_or_gt b 0 with h0 | h0
    · have h1 : 0 < E * (r ^ 2 + A) := by
        have : 0 < r ^ 2 + A := by nlinarith
        positivity
      have h2 : b * Y ≤ 0 := mul_nonpos_of_nonpos_of_nonneg h0 hY.le
      linarith
    · have hE2 : E ^ 2 < 1 := by nlinarith
      have hab := Orb.above_aux hb hA (hs.trans hsr) hs hE2 (by linarith)
      have hDr : 0 < D A r := by unfold D at *; nlinarith
      have hRs : R A b E Y s = 0 := by
        have := R_sub A b E Y r s
        rw [root, root', mul_zero] at this
        linarith
      have hV := Orb.V_neg_aux hE hY hD hb hs hA hRs hab
      have hm : 0 < b - E * (b * E - Y) := by
        have h1 : 0 < E * (Y - b * E) := mul_pos hE (by linarith)
        linarith
      have hW := W_orbit root root'
      have h8 : 0 < D A r * D A s * (r + s) * ((Y - b * E) * (b - E * (b * E - Y))) := by
        have h6 : 0 < Y - b * E := by linarith
        have h7 : 0 < r + s := by linarith
        positivity
      have h9 : 0 < (E * (r ^ 2 + A) - b * Y) * (E * (s ^ 2 + A) - b * Y) * (2 * E * (r * s - A) - b * Y * (r + s - 2)) := by
        linarith
      have h10 := (pos_iff_pos_of_mul_pos h9).mp hPP
      have e : (r + s - 2) * (E * (r ^ 2 + A) - b * Y)
          = (2 * E * (r * s - A) - b * Y * (r + s - 2)) + E * ((r + s) * D A r) := by
        unfold D; ring
      have h11 : 0 < E * ((r + s) * D A r) := by
        have h7 : 0 < r + s := by linarith
        positivity
      have h12 : 0 < (r + s - 2) * (E * (r ^ 2 + A) - b * Y) := by rw [e]; linarith
      exact pos_of_mul_pos_right h12 (by linarith)
  exact ⟨hr, (pos_iff_pos_of_mul_pos hPP).mp hr⟩

set_option maxHeartbeats 1000000 in
/-- `Y²` grows faster than `a² E²`: the sign at a turning point. -/
lemma gain_aux {A b E Y r : ℝ} (hE : 0 < E) (hE1 : E < 1) (hD : 0 < D A r) (hb : b ^ 2 ≤ A) (hr : 1 ≤ r) (hA : A ≤ 1)
    (hP : 0 < E * (r ^ 2 + A) - b * Y) (hV : b * E < Y)
    (hR : R A b E Y r = 0) (h : D A r < E ^ 2 * (r ^ 2 + A - b ^ 2)) :
    0 < Y * al A b E Y r - A * E * be A b E Y r := by
  have hA0 : 0 ≤ A := (sq_nonneg b).trans hb
  obtain ⟨v, hv⟩ : ∃ v, v = Y - b * E := ⟨_, rfl⟩
  obtain ⟨P, hPd⟩ : ∃ P, P = E * (r ^ 2 + A) - b * Y := ⟨_, rfl⟩
  obtain ⟨d, hd⟩ : ∃ d, d = D A r := ⟨_, rfl⟩
  obtain ⟨k, hk⟩ : ∃ k, k = r ^ 2 + A - b ^ 2 := ⟨_, rfl⟩
  have hv0 : 0 < v := by linarith
  have e : Y * al A b E Y r - A * E * be A b E Y r
      = P * (v * (r ^ 2 + A) + b * E * r ^ 2) + d * v * (b * v - E * (A - b ^ 2)) := by
    rw [hv, hPd, hd]; unfold al be; ring
  have hP2 : P ^ 2 = d * (k + v ^ 2) := by
    have : R A b E Y r = P ^ 2 - d * (k + v ^ 2) := by rw [hk, hv, hPd, hd]; unfold R; ring
    linarith
  have hdk : d ≤ k := by rw [hk, hd]; unfold D; nlinarith
  have hd2 : d ≤ (r - 1) ^ 2 := by rw [hd]; unfold D; nlinarith
  rw [← hPd] at hP
  rw [← hd] at hD
  rw [← hd, ← hk] at h
  rw [e]
  have hPd' : d ≤ P := by
    have h1 : d * d ≤ d * (k + v ^ 2) := mul_le_mul_of_nonneg_left (by nlinarith [sq_nonneg v]) hD.le
    refine le_of_sq_le_sq ?_ hP.le
    nlinarith
  have hAb : 0 ≤ A - b ^ 2 := by linarith
  have hEA : E * (A - b ^ 2) ≤ A - b ^ 2 := by
    have := mul_le_mul_of_nonneg_right hE1.le hAb; linarith
  have h3 : d * v ≤ P * v := mul_le_mul_of_nonneg_right hPd' hv0.le
  have h4 : d * v * (E * (A - b ^ 2)) ≤ P * v * A :=
    (mul_le_mul_of_nonneg_left (hEA.trans (by nlinarith [sq_nonneg b])) (by positivity : 0 ≤ d * v)).trans
      (mul_le_mul_of_nonneg_right h3 hA0)
  rcases le_or_gt 0 b with h0 | h0
  · have h1 : 0 ≤ P * (b * E * r ^ 2) := by positivity
    have h2 : 0 ≤ d * v * (b * v) := by positivity
    have h5 : 0 < P * v * r ^ 2 := by positivity
    nlinarith
  · obtain ⟨c, hc⟩ : ∃ c, c = -b := ⟨_, rfl⟩
    have hc0 : 0 < c := by linarith
    have hk0 : 0 < k := by rw [hk]; nlinarith [sq_nonneg b]
    have hc1 : c ≤ 1 := by
      have : c ^ 2 ≤ 1 := by rw [hc]; nlinarith
      nlinarith
    have e1 : v * ((d - c ^ 2) * v - 2 * c * E * k) = k * (E ^ 2 * k - d) := by
      have : P = E * k + c * v := by rw [hPd, hk, hv, hc]; ring
      rw [this] at hP2
      linarith
    have h1 : 0 < v * ((d - c ^ 2) * v - 2 * c * E * k) := by
      rw [e1]; exact mul_pos hk0 (by linarith)
    have h2 : 0 < (d - c ^ 2) * v - 2 * c * E * k := (pos_iff_pos_of_mul_pos h1).mp hv0
    -- `2 c E < v`
    have h5 : 2 * (c * E) < v := by
      have : k * (2 * (c * E)) < k * v := by
        have : 0 ≤ c ^ 2 * v := by positivity
        have := mul_le_mul_of_nonneg_right hdk hv0.le
        nlinarith
      exact lt_of_mul_lt_mul_left this hk0.le
    -- `√d v < P`
    have h6 : d * c * v ≤ P * (r - 1) := by
      have h7 : (d * v) ^ 2 ≤ (P * (r - 1)) ^ 2 := by
        have i : d * v ^ 2 ≤ P ^ 2 := by
          rw [hP2]; have := mul_pos hD hk0; linarith
        calc (d * v) ^ 2 = d * (d * v ^ 2) := by ring
          _ ≤ (r - 1) ^ 2 * P ^ 2 := mul_le_mul hd2 i (by positivity) (sq_nonneg _)
          _ = (P * (r - 1)) ^ 2 := by ring
      have h8 : d * v ≤ P * (r - 1) := le_of_sq_le_sq h7 (mul_nonneg hP.le (by linarith))
      have h9 : d * v * c ≤ d * v * 1 := mul_le_mul_of_nonneg_left hc1 (by positivity)
      linarith
    have h7 : 0 < P * (r ^ 2 * (v - c * E)) - d * v * (c * v) := by
      have i1 : P * (r ^ 2 * (v / 2)) < P * (r ^ 2 * (v - c * E)) := by
        have : 0 < r ^ 2 := by positivity
        exact mul_lt_mul_of_pos_left (mul_lt_mul_of_pos_left (by linarith) this) hP
      have i2 : d * c * v * v ≤ P * (r - 1) * v := mul_le_mul_of_nonneg_right h6 hv0.le
      have i3 : 0 ≤ P * v * ((r - 1) ^ 2 + 1) := by positivity
      nlinarith
    have : P * (v * (r ^ 2 + A) + b * E * r ^ 2) + d * v * (b * v - E * (A - b ^ 2))
        = (P * (r ^ 2 * (v - c * E)) - d * v * (c * v)) + (P * v * A - d * v * (E * (A - b ^ 2))) := by
      rw [hc]; ring
    rw [this]
    linarith

lemma Orb.gain_r {A b r s E Y : ℝ} (o : Orb A b r s E Y) : 0 < Y * al A b E Y r - A * E * be A b E Y r :=
  gain_aux o.hE o.hE1 o.D_pos o.hb (o.hs.trans o.hsr) o.hA o.hPr o.V_neg o.root o.above_r

lemma Orb.gain_s {A b r s E Y : ℝ} (o : Orb A b r s E Y) : 0 < Y * al A b E Y s - A * E * be A b E Y s :=
  gain_aux o.hE o.hE1 o.hD o.hb o.hs o.hA o.hPs o.V_neg o.root_s o.above_s

/-- Larger turning points belong to a larger `Y² - a² E²`. -/
lemma step_gain {A b r s E Y r' s' E' Y' : ℝ} (o : Orb A b r s E Y) (o' : Orb A b r' s' E' Y') (hr : r < r') (hs : s < s')
    (hq : q A b E' Y' r' s' s < 0)
    (g1 : 0 < (Y + Y') / 2 * al A b ((E + E') / 2) ((Y + Y') / 2) r'
      - A * ((E + E') / 2) * be A b ((E + E') / 2) ((Y + Y') / 2) r')
    (g2 : 0 < (Y + Y') / 2 * al A b ((E + E') / 2) ((Y + Y') / 2) s
      - A * ((E + E') / 2) * be A b ((E + E') / 2) ((Y + Y') / 2) s)
    (hB : 0 < Br A b ((E + E') / 2) ((Y + Y') / 2) r' s) : Y ^ 2 - A * E ^ 2 < Y' ^ 2 - A * E' ^ 2 := by
  have hsr := o.hsr
  have hsr' := o'.hsr
  have c1 : R A b E Y r' < 0 := by
    rw [o.factor]
    have := o.hq r' (by linarith)
    have h : 0 < (r' - r) * (r' - s) := mul_pos (by linarith) (by linarith)
    exact mul_neg_of_pos_of_neg h this
  have c2 : R A b E' Y' s < 0 := by
    rw [o'.factor]
    have h : 0 < (s - r') * (s - s') := mul_pos_of_neg_of_neg (by linarith) (by linarith)
    exact mul_neg_of_pos_of_neg h hq
  have d1 := R_diff A b E Y E' Y' r'
  have d2 := R_diff A b E Y E' Y' s
  rw [o'.root] at d1
  rw [o.root_s] at d2
  have j := jac A b ((E + E') / 2) ((Y + Y') / 2) r' s
  have hj : 0 < (r' - s) * Br A b ((E + E') / 2) ((Y + Y') / 2) r' s := mul_pos (by linarith) hB
  rw [← j] at hj
  clear j hB hq o o'
  have e : Y' ^ 2 - A * E' ^ 2 - (Y ^ 2 - A * E ^ 2)
      = 2 * ((Y + Y') / 2 * (Y' - Y) - A * ((E + E') / 2) * (E' - E)) := by ring
  generalize al A b ((E + E') / 2) ((Y + Y') / 2) r' = α₁ at *
  generalize be A b ((E + E') / 2) ((Y + Y') / 2) r' = β₁ at *
  generalize al A b ((E + E') / 2) ((Y + Y') / 2) s = α₂ at *
  generalize be A b ((E + E') / 2) ((Y + Y') / 2) s = β₂ at *
  generalize R A b E Y r' = u₁ at *
  generalize R A b E' Y' s = u₂ at *
  generalize (Y + Y') / 2 = y at *
  generalize (E + E') / 2 = ε at *
  have h : 0 < (α₁ * β₂ - β₁ * α₂) * (y * (Y' - Y) - A * ε * (E' - E)) := by
    have h1 := mul_pos (neg_pos.mpr c1) g2
    have h2 := mul_pos (neg_pos.mpr c2) g1
    have : (α₁ * β₂ - β₁ * α₂) * (y * (Y' - Y) - A * ε * (E' - E))
        = (-u₁ * (y * α₂ - A * ε * β₂) + -u₂ * (y * α₁ - A * ε * β₁)) / 2 := by
      linear_combination (-(y * α₂ - A * ε * β₂) / 2) * d1 + ((y * α₁ - A * ε * β₁) / 2) * d2
    rw [this]; linarith
  linarith [(pos_iff_pos_of_mul_pos h).mp hj]

/-- Locally, larger turning points belong to a larger `Y² - a² E²`. -/
lemma local_gain {A b : ℝ} {r s E Y : ℝ → ℝ} {p : ℝ} (o : Orb A b (r p) (s p) (E p) (Y p))
    (o' : ∀ᶠ t in 𝓝[>] p, Orb A b (r t) (s t) (E t) (Y t) ∧ r p < r t ∧ s p < s t)
    (hr : Tendsto r (𝓝[>] p) (𝓝 (r p))) (hs : Tendsto s (𝓝[>] p) (𝓝 (s p)))
    (hE : Tendsto E (𝓝[>] p) (𝓝 (E p))) (hY : Tendsto Y (𝓝[>] p) (𝓝 (Y p))) :
    ∀ᶠ t in 𝓝[>] p, Y p ^ 2 - A * E p ^ 2 < Y t ^ 2 - A * E t ^ 2 := by
  have mE : Tendsto (fun t => (E p + E t) / 2) (𝓝[>] p) (𝓝 (E p)) := by
    have := (hE.const_add (E p)).div_const 2
    rwa [add_self_div_two] at this
  have mY : Tendsto (fun t => (Y p + Y t) / 2) (𝓝[>] p) (𝓝 (Y p)) := by
    have := (hY.const_add (Y p)).div_const 2
    rwa [add_self_div_two] at this
  have cb : Tendsto (fun _ : ℝ => b) (𝓝[>] p) (𝓝 b) := tendsto_const_nhds
  have cs : Tendsto (fun _ : ℝ => s p) (𝓝[>] p) (𝓝 (s p)) := tendsto_const_nhds
  have t1 := (al_cont (A := A)).continuousAt.tendsto.comp (cb.prodMk_nhds (mE.prodMk_nhds (mY.prodMk_nhds hr)))
  have t2 := (be_cont (A := A)).continuousAt.tendsto.comp (cb.prodMk_nhds (mE.prodMk_nhds (mY.prodMk_nhds hr)))
  have t3 := (al_cont (A := A)).continuousAt.tendsto.comp (cb.prodMk_nhds (mE.prodMk_nhds (mY.prodMk_nhds cs)))
  have t4 := (be_cont (A := A)).continuousAt.tendsto.comp (cb.prodMk_nhds (mE.prodMk_nhds (mY.prodMk_nhds cs)))
  have t5 := (Br_cont (A := A)).continuousAt.tendsto.comp
    (cb.prodMk_nhds (mE.prodMk_nhds (mY.prodMk_nhds (hr.prodMk_nhds cs))))
  have g1 := (mY.mul t1).sub ((mE.const_mul A).mul t2)
  have g2 := (mY.mul t3).sub ((mE.const_mul A).mul t4)
  have hr0 : r p ≠ 0 := by linarith [o.hs, o.hsr]
  have hs0 : s p ≠ 0 := by linarith [o.hs]
  have t6 := (q_cont (A := A) (b := b) hr0 hs0 (E p) (Y p) (s p)).tendsto.comp
    (hE.prodMk_nhds (hY.prodMk_nhds (hr.prodMk_nhds hs)))
  have e1 := g1.eventually (lt_mem_nhds o.gain_r)
  have e3 := g2.eventually (lt_mem_nhds o.gain_s)
  have e5 := t5.eventually (lt_mem_nhds o.Br_pos)
  have e6 := t6.eventually (gt_mem_nhds (o.hq (s p) le_rfl))
  filter_upwards [o', e1, e3, e5, e6] with t ⟨h1, h2, h3⟩ k1 k3 k5 k6
  exact step_gain o h1 h2 h3 k6 k1 k3 k5

/-- The size of `Y`. -/
lemma Orb.Y_bound {A b r s E Y : ℝ} (o : Orb A b r s E Y) :
    Y ^ 2 * (r * s - 1) ≤ r * s * (2 * (r + s) + r * s) + 1 := by
  have hs := o.hs
  have hr := o.hs.trans o.hsr
  have hrs : 0 < r * s := by positivity
  have f0 := o.factor 0
  have f1 := o.factor 1
  have f2 := o.factor (-1)
  have hb := o.hb
  have hA := o.hA
  have hE2 := o.E2
  have hE0 : 0 ≤ E ^ 2 := sq_nonneg E
  have hA0 : 0 ≤ A := (sq_nonneg b).trans hb
  have e : Y ^ 2 * (r * s - (A - b ^ 2)) + (2 * A - b ^ 2) * (1 - E ^ 2) * (r * s)
      = (A - b ^ 2) * (A * (1 - E ^ 2)) + r * s * ((r + s) * (2 - (1 - E ^ 2) * (r + s)) + r * s * (1 - E ^ 2)) := by
    have hq0 : q A b E Y r s 0 * (r * s) = -((A - b ^ 2) * (A * (1 - E ^ 2) + Y ^ 2)) := by
      unfold q; field_simp; ring
    have h1 : q A b E Y r s 1 = q A b E Y r s 0 + (E ^ 2 - 1) + (2 + (E ^ 2 - 1) * (r + s)) := by unfold q; ring
    have h2 : q A b E Y r s (-1) = q A b E Y r s 0 + (E ^ 2 - 1) - (2 + (E ^ 2 - 1) * (r + s)) := by unfold q; ring
    rw [h1] at f1
    rw [h2] at f2
    generalize q A b E Y r s 0 = q0 at *
    unfold R D at f0 f1 f2
    linear_combination -(r * s / 2) * f1 - (r * s / 2) * f2 + r * s * f0 - hq0
  have i1 : 0 ≤ (2 * A - b ^ 2) * (1 - E ^ 2) * (r * s) :=
    mul_nonneg (mul_nonneg (by linarith) (by linarith)) hrs.le
  have i2 : (A - b ^ 2) * (A * (1 - E ^ 2)) ≤ 1 * (1 * 1) :=
    mul_le_mul (by nlinarith [sq_nonneg b]) (mul_le_mul hA (by linarith) (by linarith) zero_le_one)
      (mul_nonneg hA0 (by linarith)) zero_le_one
  have i3 : (r + s) * (2 - (1 - E ^ 2) * (r + s)) ≤ (r + s) * 2 :=
    mul_le_mul_of_nonneg_left (by nlinarith) (by linarith)
  have i4 : r * s * (1 - E ^ 2) ≤ r * s * 1 := mul_le_mul_of_nonneg_left (by linarith) hrs.le
  have i5 := mul_le_mul_of_nonneg_left (add_le_add i3 i4) hrs.le
  have i6 : Y ^ 2 * (r * s - 1) ≤ Y ^ 2 * (r * s - (A - b ^ 2)) :=
    mul_le_mul_of_nonneg_left (by nlinarith [sq_nonneg b]) (sq_nonneg Y)
  linarith

lemma R_cont {A : ℝ} : Continuous fun v : ℝ × ℝ × ℝ × ℝ => R A v.1 v.2.1 v.2.2.1 v.2.2.2 := by
  unfold R D; fun_prop
lemma DR_cont {A : ℝ} : Continuous fun v : ℝ × ℝ × ℝ × ℝ × ℝ => DR A v.1 v.2.1 v.2.2.1 v.2.2.2.1 v.2.2.2.2 := by
  unfold DR D; fun_prop

/-- **Limits of orbits.** -/
lemma limit {ι : Type*} {l : Filter ι} {A b₀ r₀ s₀ E₀ Y₀ : ℝ} {b r s E Y : ι → ℝ}
    (o : ∀ᶠ t in l, Orb A (b t) (r t) (s t) (E t) (Y t))
    (hb : Tendsto b l (𝓝 b₀)) (hr : Tendsto r l (𝓝 r₀)) (hs : Tendsto s l (𝓝 s₀)) (hs₀ : 1 < s₀) (hsr : s₀ ≤ r₀)
    (u : ∀ E' Y', Pre A b₀ r₀ s₀ E' Y' → E' = E₀ ∧ Y' = Y₀) :
    Tendsto E l (𝓝 E₀) ∧ Tendsto Y l (𝓝 Y₀) := by
  have hv1 : 1 < r₀ * s₀ := by nlinarith
  have hrs := hr.mul hs
  have hg : Tendsto (fun t => (r t * s t * (2 * (r t + s t) + r t * s t) + 1) / (r t * s t - 1)) l
      (𝓝 ((r₀ * s₀ * (2 * (r₀ + s₀) + r₀ * s₀) + 1) / (r₀ * s₀ - 1))) :=
    ((hrs.mul (((hr.add hs).const_mul 2).add hrs)).add_const 1).div (hrs.sub_const 1) (by linarith)
  obtain ⟨M, hM⟩ : ∃ M, M = (r₀ * s₀ * (2 * (r₀ + s₀) + r₀ * s₀) + 1) / (r₀ * s₀ - 1) + 1 := ⟨_, rfl⟩
  have hgM := hg.eventually (gt_mem_nhds (show _ < M by rw [hM]; linarith))
  have h1 := hrs.eventually (lt_mem_nhds hv1)
  have hcpt : IsCompact (Icc (0:ℝ) 1 ×ˢ Icc (0:ℝ) (M + 1)) := isCompact_Icc.prod isCompact_Icc
  have hin : ∀ᶠ t in l, (E t, Y t) ∈ Icc (0:ℝ) 1 ×ˢ Icc (0:ℝ) (M + 1) := by
    filter_upwards [o, hgM, h1] with t ot h2 h3
    have h4 := ot.Y_bound
    have h5 : Y t ^ 2 ≤ (r t * s t * (2 * (r t + s t) + r t * s t) + 1) / (r t * s t - 1) := by
      rw [le_div_iff₀ (by linarith)]; exact h4
    refine ⟨⟨ot.hE.le, ot.hE1.le⟩, ⟨ot.hY.le, ?_⟩⟩
    simp only
    nlinarith [sq_nonneg (Y t - 1), ot.hY]
  have key : Tendsto (fun t => (E t, Y t)) l (𝓝 (E₀, Y₀)) := by
    refine hcpt.tendsto_nhds_of_unique_mapClusterPt hin ?_
    rintro ⟨E', Y'⟩ - hcl
    obtain ⟨U, hU, hUf⟩ := mapClusterPt_iff_ultrafilter.mp hcl
    have oU : ∀ᶠ t in (U : Filter ι), Orb A (b t) (r t) (s t) (E t) (Y t) := hU o
    have hbU := hb.mono_left hU
    have hrU := hr.mono_left hU
    have hsU := hs.mono_left hU
    have hEU : Tendsto E U (𝓝 E') := (continuous_fst.tendsto (E', Y')).comp hUf
    have hYU : Tendsto Y U (𝓝 Y') := (continuous_snd.tendsto (E', Y')).comp hUf
    have cP : ∀ {f : ι → ℝ} {f₀ : ℝ}, Tendsto f U (𝓝 f₀) →
        Tendsto (fun t => E t * (f t ^ 2 + A) - b t * Y t) U (𝓝 (E' * (f₀ ^ 2 + A) - b₀ * Y')) :=
      fun hf => (hEU.mul ((hf.pow 2).add_const A)).sub (hbU.mul hYU)
    have pre : Pre A b₀ r₀ s₀ E' Y' := by
      refine ⟨ge_of_tendsto hEU (oU.mono fun t h => h.hE.le), le_of_tendsto hEU (oU.mono fun t h => h.hE1.le),
        ge_of_tendsto hYU (oU.mono fun t h => h.hY.le), ?_, ?_, ge_of_tendsto (cP hrU) (oU.mono fun t h => h.hPr.le),
        ge_of_tendsto (cP hsU) (oU.mono fun t h => h.hPs.le), ?_, ?_⟩
      · have c := (R_cont (A := A)).continuousAt.tendsto.comp
          (hbU.prodMk_nhds (hEU.prodMk_nhds (hYU.prodMk_nhds hrU)))
        exact tendsto_nhds_unique_of_eventuallyEq c tendsto_const_nhds (oU.mono fun t h => h.root)
      · have c := (DR_cont (A := A)).continuousAt.tendsto.comp
          (hbU.prodMk_nhds (hEU.prodMk_nhds (hYU.prodMk_nhds (hrU.prodMk_nhds hsU))))
        exact tendsto_nhds_unique_of_eventuallyEq c tendsto_const_nhds (oU.mono fun t h => h.root')
      · have c := ((hEU.pow 2).const_sub 1).mul ((hrU.add hsU).add_const 1)
        exact le_of_tendsto c (oU.mono fun t h => h.sum)
      · intro t ht
        have ct : Tendsto (fun i => t - s₀ + s i) U (𝓝 t) := by
          have := hsU.const_add (t - s₀)
          rwa [sub_add_cancel] at this
        have hne : r₀ * s₀ ≠ 0 := by linarith
        have rsU := hrU.mul hsU
        have c : Tendsto (fun i => q A (b i) (E i) (Y i) (r i) (s i) (t - s₀ + s i)) U (𝓝 (q A b₀ E' Y' r₀ s₀ t)) := by
          unfold q
          exact (((((hEU.pow 2).sub_const 1).mul (ct.pow 2)).add
            (((((hEU.pow 2).sub_const 1).mul (hrU.add hsU)).const_add 2).mul ct)).sub
              (((((hbU.pow 2).const_sub A).const_mul A).mul ((hEU.pow 2).const_sub 1)).div rsU hne)).sub
              ((((hbU.pow 2).const_sub A).mul (hYU.pow 2)).div rsU hne)
        exact le_of_tendsto c (oU.mono fun i h => (h.hq _ (by linarith)).le)
    obtain ⟨rfl, rfl⟩ := u E' Y' pre
    rfl
  exact ⟨(continuous_fst.tendsto _).comp key, (continuous_snd.tendsto _).comp key⟩

end KGP.EMono
