import Verif.Props.SepContinuity
import Verif.Lemmas.SepOrder

/-!
# C64 — order properties of the separatrix

The more prograde an orbit is, the closer to the hole it can be stable; spinning the hole up helps prograde and
polar orbits and hurts retrograde ones.
-/

namespace KGP

open Classical Real Filter Topology SepCert

lemma SFull_sep {s a e x : ℝ} (h : SFull s a e x = 0) :
    N s (a ^ 2) e (1 - x ^ 2) ^ 2
      - 8 * a ^ 2 * (1 - (1 - x ^ 2)) * (M1 s (a ^ 2) e (1 - x ^ 2) * M2 s (a ^ 2) e (1 - x ^ 2)) = 0 := by
  rw [SFull_eq] at h
  linear_combination h

section
variable {a e x x' s : ℝ} (ha : 0 < a) (ha1 : a < 1) (he : 0 ≤ e) (he1 : e ≤ 1) (hl : -1 ≤ x) (hr : x ≤ 1)
  (hv : IsSeparatrixValue a e x s)
include ha he hl hr hv

lemma value_ge (he1 : e ≤ 1) : 1 + e ≤ s := by
  rcases lt_or_ge s 5 with h | h
  · exact (small_value ha.le he hl hr hv h).2.2
  · linarith

include ha1 he1

/-- A value of the separatrix belongs to one inclination only. -/
lemma value_inj (hl' : -1 ≤ x') (hr' : x' ≤ 1) (hv' : IsSeparatrixValue a e x' s) : x = x' := by
  have hA : 0 < a ^ 2 := by positivity
  have hA1 : a ^ 2 < 1 := by nlinarith
  have hs := value_ge ha he hl hr hv he1
  have z := SFull_sep (hv.generic ha.ne')
  have z' := SFull_sep (hv'.generic ha.ne')
  have hx0 : 0 ≤ 1 - x ^ 2 := by nlinarith
  have hx0' : 0 ≤ 1 - x' ^ 2 := by nlinarith
  have hx1 : 1 - x ^ 2 ≤ 1 := by linarith [sq_nonneg x]
  have hx1' : 1 - x' ^ 2 ≤ 1 := by linarith [sq_nonneg x']
  have hw : 1 - x ^ 2 = 1 - x' ^ 2 := by
    rcases eq_or_lt_of_le he1 with h | h
    · subst h
      exact SepParabola.w_unique hA hA1 (by linarith) hx0 hx1 hx0' hx1' z z'
    · exact SepCurve.w_unique hA hA1 he h hs hx0 hx1 hx0' hx1' z z'
  rcases le_or_gt 4 s with h4 | h4
  · have r1 := ratio_value ha.le ha1 he he1 hl hr hv h4
    have r2 := ratio_value ha.le ha1 he he1 hl' hr' hv' h4
    rw [hw, r2] at r1
    have h2 : 2 * √2 * a ≠ 0 := by positivity
    exact (mul_left_cancel₀ h2 r1).symm
  · have p1 := (small_value ha.le he hl hr hv (by linarith)).2.1
    have p2 := (small_value ha.le he hl' hr' hv' (by linarith)).2.1
    nlinarith

end

/-- Continuous and injective functions on `[0, 1)` whose values stay on one side of the initial one. -/
lemma strictAnti_of_side {g : ℝ → ℝ} (hc : ContinuousOn g (Set.Ico 0 1))
    (hi : Set.InjOn g (Set.Ico 0 1)) (h0 : ∀ t ∈ Set.Ico (0:ℝ) 1, g t ≤ g 0) : StrictAntiOn g (Set.Ico 0 1) := by
  intro s hs t ht hst
  have hsub : Set.Icc 0 t ⊆ Set.Ico (0:ℝ) 1 := fun u hu => ⟨hu.1, lt_of_le_of_lt hu.2 ht.2⟩
  have ht0 : 0 ≤ t := ht.1
  rcases (hc.mono hsub).strictMonoOn_of_injOn_Icc' ht0 (hi.mono hsub) with h | h
  · have := h (Set.left_mem_Icc.mpr ht0) (Set.right_mem_Icc.mpr ht0) (lt_of_le_of_lt hs.1 hst)
    linarith [h0 t ht]
  · exact h ⟨hs.1, hst.le⟩ (Set.right_mem_Icc.mpr ht0) hst

lemma strictMono_of_side {g : ℝ → ℝ} (hc : ContinuousOn g (Set.Ico 0 1))
    (hi : Set.InjOn g (Set.Ico 0 1)) (h0 : ∀ t ∈ Set.Ico (0:ℝ) 1, g 0 ≤ g t) : StrictMonoOn g (Set.Ico 0 1) := by
  have := strictAnti_of_side (g := fun t => - g t) hc.neg (fun s hs t ht h => hi hs ht (by simpa using h))
    (fun t ht => by linarith [h0 t ht])
  intro s hs t ht h
  have := this hs ht h
  simp only at this
  linarith

/-- Equatorial separatrix values determine the spin. -/
lemma value_inj_spin {a a' e x s : ℝ} (ha : 0 ≤ a) (ha1 : a < 1) (ha' : 0 ≤ a') (ha1' : a' < 1) (he : 0 ≤ e)
    (he1 : e ≤ 1) (hx : x ^ 2 = 1) (hv : IsSeparatrixValue a e x s) (hv' : IsSeparatrixValue a' e x s) :
    a = a' := by
  have hl : -1 ≤ x := by nlinarith
  have hr : x ≤ 1 := by nlinarith
  have hzero : ∀ {b : ℝ}, 0 < b → b < 1 → IsSeparatrixValue b e x (6 + 2 * e) → False := by
    intro b hb hb1 h
    have h1 := h.generic hb.ne'
    have h2 : SFull (6 + 2 * e) b e x = (6 + 2 * e) ^ 8 * SEquatorial (6 + 2 * e) b e := by
      rcases sq_eq_one_iff.mp hx with h | h
      · rw [h, SFull_one]
      · rw [h, SFull_neg_one]
    rw [h2] at h1
    have h3 := SEq_mid_neg hb.ne' (by nlinarith : b ^ 2 ≤ 1) he he1
    have h4 : 0 < (6 + 2 * e) ^ 8 := by positivity
    nlinarith [mul_neg_of_pos_of_neg h4 h3]
  rcases eq_or_lt_of_le ha with h | h
  · rcases eq_or_lt_of_le ha' with h' | h'
    · rw [← h, ← h']
    · rw [hv.zero h.symm] at hv'
      exact (hzero h' ha1' hv').elim
  · rcases eq_or_lt_of_le ha' with h' | h'
    · rw [hv'.zero h'.symm] at hv
      exact (hzero h ha1 hv).elim
    · have z := SFull_sep (hv.generic h.ne')
      have z' := SFull_sep (hv'.generic h'.ne')
      rw [hx, sub_self] at z z'
      have hs := value_ge h he hl hr hv he1
      have hAA : a ^ 2 = a' ^ 2 := by
        rcases eq_or_lt_of_le he1 with he' | he'
        · subst he'
          exact SepParabola.A_unique (by positivity) (by nlinarith) (by positivity) (by nlinarith) (by linarith) z z'
        · exact SepCurve.A_unique (by positivity) (by nlinarith) (by positivity) (by nlinarith) he he' hs z z'
      exact (pow_left_inj₀ ha ha' two_ne_zero).mp hAA

/-- **C64 (inclination).** At fixed spin `0 < a < 1` and eccentricity the separatrix strictly decreases with the
inclination parameter `x`: the more prograde the orbit, the closer it can come.  Consequently an orbit that stays
stable stays so when tilted towards prograde, and every separatrix lies between the two equatorial ones. -/
theorem C64_inclination (rs : RootScalar) (a e x x' : ℝ) (ha : 0 < a) (ha1 : a < 1) (he : 0 ≤ e) (he1 : e ≤ 1)
    (hl : -1 ≤ x) (hxx : x < x') (hr : x' ≤ 1) :
    (∃ s s', separatrix rs a e x = .ok s ∧ separatrix rs a e x' = .ok s' ∧ s' < s)
    ∧ ∀ p, isStable rs a p e x = .ok true → isStable rs a p e x' = .ok true := by
  obtain ⟨f, hf, hc⟩ := C15_continuous
  have hmem : ∀ t ∈ Set.Icc (-1:ℝ) 1, (a, e, t) ∈ Spec.SeparatrixDomain :=
    fun t ht => ⟨⟨ha.le, ha1⟩, ⟨he, he1⟩, ht.1, ht.2⟩
  have hval : ∀ t ∈ Set.Icc (-1:ℝ) 1, IsSeparatrixValue a e t (f (a, e, t)) := by
    intro t ht
    obtain ⟨s, h1, h2⟩ := C15_separatrix_returns rs a e t ha.le ha1 he he1 ht.1 ht.2
    rw [hf rs a e t (hmem t ht)] at h1
    rw [Except.ok.inj h1]; exact h2
  have hcont : ContinuousOn (fun t => f (a, e, t)) (Set.Icc (-1) 1) :=
    hc.comp (by fun_prop) hmem
  have hinj : Set.InjOn (fun t => f (a, e, t)) (Set.Icc (-1) 1) := by
    intro t ht t' ht' h
    simp only at h
    exact value_inj ha ha1 he he1 ht.1 ht.2 (hval t ht) ht'.1 ht'.2 (h ▸ hval t' ht')
  have hanti : StrictAntiOn (fun t => f (a, e, t)) (Set.Icc (-1) 1) := by
    rcases hcont.strictMonoOn_of_injOn_Icc' (by norm_num) hinj with h | h
    · have m0 : (0:ℝ) ∈ Set.Icc (-1:ℝ) 1 := by constructor <;> norm_num
      have m1 : (1:ℝ) ∈ Set.Icc (-1:ℝ) 1 := by constructor <;> norm_num
      have h1 := h m0 m1 zero_lt_one
      simp only at h1
      obtain ⟨k1, -, k3⟩ := (hval 1 m1).prograde ha.ne' rfl
      obtain ⟨j1, j2, -⟩ := (hval 0 m0).polar ha.ne' rfl
      have := equatorial_le_polar ha (by nlinarith : a ^ 2 ≤ 1) he he1 k3 k1 j2 j1
      linarith
    · exact h
  have mx : x ∈ Set.Icc (-1:ℝ) 1 := ⟨hl, by linarith⟩
  have mx' : x' ∈ Set.Icc (-1:ℝ) 1 := ⟨by linarith, hr⟩
  have hlt := hanti mx mx' hxx
  simp only at hlt
  have h1 := hf rs a e x (hmem x mx)
  have h2 := hf rs a e x' (hmem x' mx')
  refine ⟨⟨_, _, h1, h2, hlt⟩, fun p hp => ?_⟩
  rw [(C16_threshold rs a e x').2.1 p _ h2]
  rw [(C16_threshold rs a e x).2.1 p _ h1] at hp
  linarith

/-- **C64 (spin).** Spinning the hole up strictly lowers the separatrix of prograde equatorial and of polar orbits
and strictly raises that of retrograde equatorial orbits, at every eccentricity. -/
theorem C64_spin (rs : RootScalar) (a a' e : ℝ) (ha : 0 ≤ a) (haa : a < a') (ha1 : a' < 1) (he : 0 ≤ e)
    (he1 : e ≤ 1) :
    (∃ s s', separatrix rs a e 1 = .ok s ∧ separatrix rs a' e 1 = .ok s' ∧ s' < s)
    ∧ (∃ s s', separatrix rs a e 0 = .ok s ∧ separatrix rs a' e 0 = .ok s' ∧ s' < s)
    ∧ (∃ s s', separatrix rs a e (-1) = .ok s ∧ separatrix rs a' e (-1) = .ok s' ∧ s < s') := by
  obtain ⟨f, hf, hc⟩ := C15_continuous
  have hmem : ∀ x ∈ Set.Icc (-1:ℝ) 1, ∀ t ∈ Set.Ico (0:ℝ) 1, (t, e, x) ∈ Spec.SeparatrixDomain :=
    fun x hx t ht => ⟨⟨ht.1, ht.2⟩, ⟨he, he1⟩, hx.1, hx.2⟩
  have hval : ∀ x ∈ Set.Icc (-1:ℝ) 1, ∀ t ∈ Set.Ico (0:ℝ) 1, IsSeparatrixValue t e x (f (t, e, x)) := by
    intro x hx t ht
    obtain ⟨s, h1, h2⟩ := C15_separatrix_returns rs t e x ht.1 ht.2 he he1 hx.1 hx.2
    rw [hf rs t e x (hmem x hx t ht)] at h1
    rw [Except.ok.inj h1]; exact h2
  have hcont : ∀ x ∈ Set.Icc (-1:ℝ) 1, ContinuousOn (fun t => f (t, e, x)) (Set.Ico 0 1) :=
    fun x hx => hc.comp (by fun_prop) (hmem x hx)
  have hinj : ∀ x ∈ Set.Icc (-1:ℝ) 1, x ^ 2 = 1 → Set.InjOn (fun t => f (t, e, x)) (Set.Ico 0 1) := by
    intro x hx hx2 t ht t' ht' h
    simp only at h
    exact value_inj_spin ht.1 ht.2 ht'.1 ht'.2 he he1 hx2 (hval x hx t ht) (h ▸ hval x hx t' ht')
  have m0 : (0:ℝ) ∈ Set.Icc (-1:ℝ) 1 := by constructor <;> norm_num
  have m1 : (1:ℝ) ∈ Set.Icc (-1:ℝ) 1 := by constructor <;> norm_num
  have m2 : (-1:ℝ) ∈ Set.Icc (-1:ℝ) 1 := by constructor <;> norm_num
  have n0 : (0:ℝ) ∈ Set.Ico (0:ℝ) 1 := by constructor <;> norm_num
  have na : a ∈ Set.Ico (0:ℝ) 1 := ⟨ha, by linarith⟩
  have na' : a' ∈ Set.Ico (0:ℝ) 1 := ⟨by linarith, ha1⟩
  have z : ∀ x ∈ Set.Icc (-1:ℝ) 1, f (0, e, x) = 6 + 2 * e := fun x hx => (hval x hx 0 n0).zero rfl
  refine ⟨⟨_, _, hf rs a e 1 (hmem 1 m1 a na), hf rs a' e 1 (hmem 1 m1 a' na'), ?_⟩,
    ⟨_, _, hf rs a e 0 (hmem 0 m0 a na), hf rs a' e 0 (hmem 0 m0 a' na'), ?_⟩,
    ⟨_, _, hf rs a e (-1) (hmem (-1) m2 a na), hf rs a' e (-1) (hmem (-1) m2 a' na'), ?_⟩⟩
  · refine strictAnti_of_side (hcont 1 m1) (hinj 1 m1 (by norm_num)) ?_ na na' haa
    intro t ht
    rw [z 1 m1]
    by_cases h : t = 0
    · exact ((hval 1 m1 t ht).zero h).le
    · exact ((hval 1 m1 t ht).prograde h rfl).2.2
  · have hpl := polarLo_bounds.1
    unfold polarLo at hpl
    have g4 : 4 < f (a, e, 0) := by
      by_cases h : a = 0
      · rw [(hval 0 m0 a na).zero h]; linarith
      · linarith [((hval 0 m0 a na).polar h rfl).2.1]
    have r1 := ratio_value ha (by linarith) he he1 m0.1 m0.2 (hval 0 m0 a na) g4.le
    rw [value_lt_iff na'.1 ha1 he he1 m0.1 m0.2 (hval 0 m0 a' na') g4]
    have hA : a ^ 2 ≤ 1 := by nlinarith
    have hA' : a' ^ 2 ≤ 1 := by nlinarith
    have hN := N_polar_anti (sq_nonneg a) (by nlinarith : a ^ 2 < a' ^ 2) he he1 g4.le
    have n1 := M1_pos g4.le (sq_nonneg a) hA he he1 (zero_le_one : (0:ℝ) ≤ 1) le_rfl
    have n2 := M2_pos g4.le (sq_nonneg a) hA he he1 (zero_le_one : (0:ℝ) ≤ 1) le_rfl
    have n1' := M1_pos g4.le (sq_nonneg a') hA' he he1 (zero_le_one : (0:ℝ) ≤ 1) le_rfl
    have n2' := M2_pos g4.le (sq_nonneg a') hA' he he1 (zero_le_one : (0:ℝ) ≤ 1) le_rfl
    have e0 : (1:ℝ) - 0 ^ 2 = 1 := by norm_num
    rw [e0, mul_zero] at r1 ⊢
    unfold ratio at r1 ⊢
    have s1 := Real.sqrt_pos.mpr (mul_pos n1 n2)
    have hz := (div_eq_zero_iff.mp r1).resolve_right s1.ne'
    exact div_neg_of_neg_of_pos (by linarith) (Real.sqrt_pos.mpr (mul_pos n1' n2'))
  · refine strictMono_of_side (hcont (-1) m2) (hinj (-1) m2 (by norm_num)) ?_ na na' haa
    intro t ht
    rw [z (-1) m2]
    by_cases h : t = 0
    · exact ((hval (-1) m2 t ht).zero h).ge
    · exact ((hval (-1) m2 t ht).retrograde h rfl).2.1

/-- Non-vacuity: a case that is stable when prograde but not when retrograde. -/
example (rs : RootScalar) : ∃ p, isStable rs (1 / 2) p (1 / 2) (1 / 2) = .ok true
    ∧ isStable rs (1 / 2) p (1 / 2) (-1 / 2) = .ok false := by
  obtain ⟨⟨s, s', h1, h2, h3⟩, -⟩ := C64_inclination rs (1 / 2) (1 / 2) (-1 / 2) (1 / 2) (by norm_num) (by norm_num)
    (by norm_num) (by norm_num) (by norm_num) (by norm_num) (by norm_num)
  exact ⟨s, ((C16_threshold rs _ _ _).2.1 s _ h2).mpr h3, (C16_threshold rs _ _ _).2.2.1 _ h1⟩

end KGP
