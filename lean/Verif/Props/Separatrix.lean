import Verif.Lemmas.SepUnique

/-!
# C14, C15, C16 and the separatrix part of C07: the separatrix
-/

namespace KGP

open Classical Real

/-! ## A root finder exists (the contract `RootScalar` is satisfiable) -/

/-- A bracketing root finder satisfying the contract: it picks some zero in the bracket. -/
noncomputable def exampleRS : RootScalar where
  solve f lo hi :=
    if 0 < f lo * f hi then .error (.valueError "f(a) and f(b) must have different signs")
    else if h : ∃ r ∈ Set.uIcc lo hi, f r = 0 then .ok h.choose else .ok lo
  solve_err f lo hi h := by simp [h]
  solve_ok f lo hi hc h := by
    have hex : ∃ r ∈ Set.uIcc lo hi, f r = 0 := by
      have himg := intermediate_value_uIcc (a := lo) (b := hi) hc.continuousOn
      have h0 : (0 : ℝ) ∈ Set.uIcc (f lo) (f hi) := by
        rw [Set.mem_uIcc]
        rcases mul_nonpos_iff.mp h with ⟨h1, h2⟩ | ⟨h1, h2⟩
        · exact .inr ⟨h2, h1⟩
        · exact .inl ⟨h1, h2⟩
      obtain ⟨r, hr, hr0⟩ := himg h0
      exact ⟨r, hr, hr0⟩
    refine ⟨hex.choose, ?_, hex.choose_spec.1, hex.choose_spec.2⟩
    simp only [not_lt.mpr h, if_false, dif_pos hex]

/-! ## C14 -/

/-- **C14.** The three separatrix polynomials used by `separatrix` agree where their domains meet. -/
theorem C14_consistency (p a e x : ℝ) :
    SFull p a e 0 = SPolar p a e ^ 2
      ∧ SFull p a e 1 = p ^ 8 * SEquatorial p a e
      ∧ SFull p a e (-1) = p ^ 8 * SEquatorial p a e
      ∧ SFull p 0 e x = p ^ 10 * (p - 6 - 2 * e) ^ 2
      ∧ SFull p a e (-x) = SFull p a e x
      ∧ SEquatorial p 0 e = p ^ 2 * (p - 6 - 2 * e) ^ 2
      ∧ SPolar p 0 e = p ^ 5 * (p - 6 - 2 * e) := by
  refine ⟨?_, ?_, ?_, ?_, ?_, ?_, ?_⟩ <;> simp only [SFull, SPolar, SEquatorial] <;> ring

/-! ## C15 -/

/-- What `separatrix` returns: the right polynomial for the inclination vanishes there, and the value
lies in the bracket documented for that inclination. -/
structure IsSeparatrixValue (a e x s : ℝ) : Prop where
  /-- Schwarzschild -/
  zero : a = 0 → s = 6 + 2 * e
  /-- polar orbits -/
  polar : a ≠ 0 → x = 0 → SPolar s a e = 0 ∧ 1 + √3 + √(3 + 2 * √3) ≤ s ∧ s ≤ 8
  /-- equatorial prograde -/
  prograde : a ≠ 0 → x = 1 → SEquatorial s a e = 0 ∧ 1 + e ≤ s ∧ s ≤ 6 + 2 * e
  /-- equatorial retrograde -/
  retrograde : a ≠ 0 → x = -1 →
    SEquatorial s a e = 0 ∧ 6 + 2 * e ≤ s ∧ s ≤ 5 + e + 4 * √(1 + e)
  /-- inclined orbits: a zero of the full polynomial between the equatorial and polar separatrix
  (prograde), or between the polar separatrix and 12 (retrograde) -/
  generic : a ≠ 0 → SFull s a e x = 0
  generic_prograde : a ≠ 0 → 0 < x → x < 1 → ∃ pe pp, SEquatorial pe a e = 0
    ∧ 1 + e ≤ pe ∧ pe ≤ 6 + 2 * e ∧ SPolar pp a e = 0 ∧ 1 + √3 + √(3 + 2 * √3) ≤ pp ∧ pp ≤ 8
    ∧ pe ≤ s ∧ s ≤ pp
  generic_retrograde : a ≠ 0 → -1 < x → x < 0 → ∃ pp, SPolar pp a e = 0
    ∧ 1 + √3 + √(3 + 2 * √3) ≤ pp ∧ pp ≤ s ∧ s ≤ 12

lemma solve_polar (rs : RootScalar) (a e : ℝ) (ha : a ^ 2 ≤ 1) (he : 0 ≤ e) (he1 : e ≤ 1) :
    ∃ r, rs.solve (fun p => SPolar p a e) polarLo 8 = .ok r
      ∧ polarLo ≤ r ∧ r ≤ 8 ∧ SPolar r a e = 0 := by
  obtain ⟨r, h1, h2, h3⟩ := rs.solve_ok (fun p => SPolar p a e) polarLo 8 (continuous_SPolar a e)
    (mul_nonpos_of_nonpos_of_nonneg (SPolar_lo a e ha he he1) (SPolar_hi a e he he1))
  rw [Set.uIcc_of_le (by linarith [polarLo_bounds.2])] at h2
  exact ⟨r, h1, h2.1, h2.2, h3⟩

lemma solve_prograde (rs : RootScalar) (a e : ℝ) (ha : a ^ 2 ≤ 1) (he : 0 ≤ e) (he1 : e ≤ 1) :
    ∃ r, rs.solve (fun p => SEquatorial p a e) (1 + e) (6 + 2 * e) = .ok r
      ∧ 1 + e ≤ r ∧ r ≤ 6 + 2 * e ∧ SEquatorial r a e = 0 := by
  obtain ⟨r, h1, h2, h3⟩ := rs.solve_ok (fun p => SEquatorial p a e) (1 + e) (6 + 2 * e)
    (continuous_SEq a e)
    (mul_nonpos_of_nonneg_of_nonpos (SEq_lo a e ha he) (SEq_mid a e ha he he1))
  rw [Set.uIcc_of_le (by linarith)] at h2
  exact ⟨r, h1, h2.1, h2.2, h3⟩

lemma solve_retrograde (rs : RootScalar) (a e : ℝ) (ha : a ^ 2 ≤ 1) (he : 0 ≤ e) (he1 : e ≤ 1) :
    ∃ r, rs.solve (fun p => SEquatorial p a e) (6 + 2 * e) (5 + e + 4 * √(1 + e)) = .ok r
      ∧ 6 + 2 * e ≤ r ∧ r ≤ 5 + e + 4 * √(1 + e) ∧ SEquatorial r a e = 0 := by
  obtain ⟨r, h1, h2, h3⟩ := rs.solve_ok (fun p => SEquatorial p a e) (6 + 2 * e)
    (5 + e + 4 * √(1 + e)) (continuous_SEq a e)
    (mul_nonpos_of_nonpos_of_nonneg (SEq_mid a e ha he he1) (SEq_hi a e ha he he1))
  have hs : 1 ≤ √(1 + e) := Real.one_le_sqrt.mpr (by linarith)
  have hs2 : √(1 + e) ^ 2 = 1 + e := Real.sq_sqrt (by linarith)
  rw [Set.uIcc_of_le (by nlinarith)] at h2
  exact ⟨r, h1, h2.1, h2.2, h3⟩

lemma validParams_iff (a e x : ℝ) : validParams a e x ↔
    (0 ≤ a ∧ a ≤ 1) ∧ (0 ≤ e ∧ e ≤ 1) ∧ (-1 ≤ x ∧ x ≤ 1) := Iff.rfl

/-- **C15.** For every spin `0 ≤ a < 1`, eccentricity `0 ≤ e ≤ 1` and inclination `-1 ≤ x ≤ 1`,
and whichever zero the bracketing root finder picks, none of the root searches of `separatrix` can
raise, and the value returned is a zero of the polynomial belonging to that inclination, inside the
documented bracket. -/
theorem C15_separatrix_returns (rs : RootScalar) (a e x : ℝ) (ha : 0 ≤ a) (ha1 : a < 1)
    (he : 0 ≤ e) (he1 : e ≤ 1) (hx : -1 ≤ x) (hx1 : x ≤ 1) :
    ∃ s, separatrix rs a e x = .ok s ∧ IsSeparatrixValue a e x s := by
  have hA : a ^ 2 ≤ 1 := by nlinarith
  have hX : x ^ 2 ≤ 1 := by nlinarith
  have hv : validParams a e x := ⟨⟨ha, ha1.le⟩, ⟨he, he1⟩, ⟨hx, hx1⟩⟩
  have hC := C14_consistency
  unfold separatrix
  simp only [raiseIf, ha1.ne, hv, not_true, if_false, bind_ok]
  by_cases h0 : a = 0
  · simp only [h0, if_true]
    exact ⟨_, rfl, ⟨fun _ => rfl, fun h => absurd rfl h, fun h => absurd rfl h,
      fun h => absurd rfl h, fun h => absurd rfl h, fun h => absurd rfl h, fun h => absurd rfl h⟩⟩
  simp only [h0, if_false]
  obtain ⟨pp, hpp, hpp1, hpp2, hpp3⟩ := solve_polar rs a e hA he he1
  rw [hpp]
  simp only [bind_ok]
  by_cases hx0 : x = 0
  · simp only [hx0, if_true]
    refine ⟨pp, rfl, ⟨fun h => absurd h h0, fun _ _ => ⟨hpp3, hpp1, hpp2⟩,
      fun _ h => absurd h (by norm_num), fun _ h => absurd h (by norm_num), fun _ => ?_,
      fun _ h => absurd h (by norm_num), fun _ _ h => absurd h (by norm_num)⟩⟩
    rw [(hC pp a e 0).1, hpp3]; norm_num
  simp only [hx0, if_false]
  obtain ⟨pe, hpe, hpe1, hpe2, hpe3⟩ := solve_prograde rs a e hA he he1
  rw [hpe]
  simp only [bind_ok]
  by_cases hxp : x = 1
  · simp only [hxp, if_true]
    refine ⟨pe, rfl, ⟨fun h => absurd h h0, fun _ h => absurd h (by norm_num),
      fun _ _ => ⟨hpe3, hpe1, hpe2⟩, fun _ h => absurd h (by norm_num), fun _ => ?_,
      fun _ _ h => absurd h (by norm_num), fun _ _ h => absurd h (by norm_num)⟩⟩
    rw [(hC pe a e 0).2.1, hpe3]; norm_num
  simp only [hxp, if_false]
  by_cases hxm : x = -1
  · simp only [hxm, if_true]
    obtain ⟨pr, hpr, hpr1, hpr2, hpr3⟩ := solve_retrograde rs a e hA he he1
    refine ⟨pr, hpr, ⟨fun h => absurd h h0, fun _ h => absurd h (by norm_num),
      fun _ h => absurd h (by norm_num), fun _ _ => ⟨hpr3, hpr1, hpr2⟩, fun _ => ?_,
      fun _ h => absurd h (by norm_num), fun _ h => absurd h (by norm_num)⟩⟩
    rw [(hC pr a e 0).2.2.1, hpr3]; norm_num
  simp only [hxm, if_false]
  by_cases hxpos : x > 0
  · simp only [hxpos, if_true]
    obtain ⟨r, h1, h2, h3⟩ := rs.solve_ok (fun p => SFull p a e x) pe pp (continuous_SFull a e x)
      (mul_nonpos_of_nonneg_of_nonpos (SFull_prograde a pe e x hA he he1 hX hpe1 hpe2 hpe3)
        (SFull_polar a pp e x hA he he1 hX hpp1 hpp3))
    refine ⟨r, h1, ⟨fun h => absurd h h0, fun _ h => absurd h hx0, fun _ h => absurd h hxp,
      fun _ h => absurd h hxm, fun _ => h3, fun _ _ _ => ?_,
      fun _ _ h => absurd h (by linarith)⟩⟩
    rw [Set.uIcc_of_le (equatorial_le_polar (lt_of_le_of_ne ha (Ne.symm h0)) hA he he1 hpe2 hpe3 hpp1
      hpp3)] at h2
    exact ⟨pe, pp, hpe3, hpe1, hpe2, hpp3, hpp1, hpp2, h2.1, h2.2⟩
  · simp only [hxpos, if_false]
    obtain ⟨r, h1, h2, h3⟩ := rs.solve_ok (fun p => SFull p a e x) pp 12 (continuous_SFull a e x)
      (mul_nonpos_of_nonpos_of_nonneg (SFull_polar a pp e x hA he he1 hX hpp1 hpp3)
        (SFull_twelve a e x hA he1 hX))
    rw [Set.uIcc_of_le (by linarith)] at h2
    refine ⟨r, h1, ⟨fun h => absurd h h0, fun _ h => absurd h hx0, fun _ h => absurd h hxp,
      fun _ h => absurd h hxm, fun _ => h3, fun _ h => absurd h hxpos, fun _ _ _ => ?_⟩⟩
    exact ⟨pp, hpp3, hpp1, h2.1, h2.2⟩

/-- Non-vacuity of C15: an inclined retrograde orbit with `a = 9/10`. -/
example : ∃ s, separatrix exampleRS (9 / 10) (1 / 2) (-1 / 3) = .ok s
    ∧ IsSeparatrixValue (9 / 10) (1 / 2) (-1 / 3) s :=
  C15_separatrix_returns _ _ _ _ (by norm_num) (by norm_num) (by norm_num) (by norm_num)
    (by norm_num) (by norm_num)

/-- **C11 (separatrix).** `separatrix` returns exactly for `0 ≤ a < 1`, `0 ≤ e ≤ 1`, `-1 ≤ x ≤ 1`;
for every other real input (in particular every `a < 0`) it raises `ValueError`. -/
theorem C11_separatrix_contract (rs : RootScalar) (a e x : ℝ) :
    ((separatrix rs a e x).Returns ↔
        (0 ≤ a ∧ a < 1) ∧ (0 ≤ e ∧ e ≤ 1) ∧ (-1 ≤ x ∧ x ≤ 1))
      ∧ (¬ (separatrix rs a e x).Returns → (separatrix rs a e x).IsValueError) := by
  by_cases h : (0 ≤ a ∧ a < 1) ∧ (0 ≤ e ∧ e ≤ 1) ∧ (-1 ≤ x ∧ x ≤ 1)
  · obtain ⟨s, hs, -⟩ := C15_separatrix_returns rs a e x h.1.1 h.1.2 h.2.1.1 h.2.1.2 h.2.2.1 h.2.2.2
    have hr : (separatrix rs a e x).Returns := ⟨s, hs⟩
    exact ⟨iff_of_true hr h, fun hn => absurd hr hn⟩
  · have herr : (separatrix rs a e x).IsValueError := by
      unfold separatrix raiseIf
      by_cases h1 : a = 1
      · simp only [h1, if_true, bind_error]; exact ⟨_, rfl⟩
      · have hnv : ¬ validParams a e x := by
          rintro ⟨⟨h2, h3⟩, h4⟩
          exact h ⟨⟨h2, lt_of_le_of_ne h3 h1⟩, h4⟩
        simp only [h1, hnv, if_false, not_false_eq_true, if_true, bind_ok, bind_error]
        exact ⟨_, rfl⟩
    have hr : ¬ (separatrix rs a e x).Returns := by
      rintro ⟨v, hv⟩
      obtain ⟨m, hm⟩ := herr
      rw [hv] at hm; cases hm
    exact ⟨iff_of_false hr h, fun _ => herr⟩

/-! ## C07 (separatrix) -/

/-- **C07 (separatrix).** In Schwarzschild the separatrix is `6 + 2e` for every inclination. -/
theorem C07_separatrix (rs : RootScalar) (e x : ℝ) (he : 0 ≤ e) (he1 : e ≤ 1) (hx : -1 ≤ x)
    (hx1 : x ≤ 1) : separatrix rs 0 e x = .ok (6 + 2 * e) := by
  obtain ⟨s, hs, hv⟩ := C15_separatrix_returns rs 0 e x le_rfl (by norm_num) he he1 hx hx1
  rw [hs, hv.zero rfl]

/-! ## C16 -/

/-- **C16.** `is_stable` is a threshold in `p`: whenever it answers, there is one number, the value
returned by `separatrix`, such that the answer for every `p'` is `p' > s`. -/
theorem C16_threshold (rs : RootScalar) (a e x : ℝ) :
    (∀ p b, isStable rs a p e x = .ok b →
      ∃ s, separatrix rs a e x = .ok s ∧ ∀ p', isStable rs a p' e x = .ok (decide (p' > s)))
      ∧ (∀ p s, separatrix rs a e x = .ok s → (isStable rs a p e x = .ok true ↔ s < p))
      ∧ (∀ s, separatrix rs a e x = .ok s → isStable rs a s e x = .ok false)
      ∧ (∀ p p', p ≤ p' → isStable rs a p e x = .ok true → isStable rs a p' e x = .ok true) := by
  refine ⟨?_, ?_, ?_, ?_⟩
  · intro p b h
    rw [isStable_eq] at h
    cases hs : separatrix rs a e x with
    | error er => rw [hs, bind_error] at h; cases h
    | ok s => exact ⟨s, rfl, fun p' => by rw [isStable_eq, hs, bind_ok]⟩
  · intro p s hs
    rw [isStable_eq, hs, bind_ok]; simp
  · intro s hs
    rw [isStable_eq, hs, bind_ok]; simp
  · intro p p' hp h
    rw [isStable_eq] at h ⊢
    cases hs : separatrix rs a e x with
    | error er => rw [hs, bind_error] at h; cases h
    | ok s =>
      rw [hs, bind_ok] at h
      rw [bind_ok]
      simp at h ⊢
      linarith

/-- **C16 (totality).** `is_stable` answers for every valid parameter set and raises `ValueError`
otherwise, whatever `p` is. -/
theorem C16_contract (rs : RootScalar) (a p e x : ℝ) :
    ((isStable rs a p e x).Returns ↔
        (0 ≤ a ∧ a < 1) ∧ (0 ≤ e ∧ e ≤ 1) ∧ (-1 ≤ x ∧ x ≤ 1))
      ∧ (¬ (isStable rs a p e x).Returns → (isStable rs a p e x).IsValueError) := by
  have h := C11_separatrix_contract rs a e x
  have hiff : (isStable rs a p e x).Returns ↔ (separatrix rs a e x).Returns := by
    rw [isStable_eq]
    cases separatrix rs a e x with
    | error er =>
      rw [bind_error]
      constructor <;> (rintro ⟨v, hv⟩; cases hv)
    | ok s => rw [bind_ok]; exact ⟨fun _ => ⟨_, rfl⟩, fun _ => ⟨_, rfl⟩⟩
  refine ⟨hiff.trans h.1, fun hn => ?_⟩
  obtain ⟨m, hm⟩ := h.2 (fun hr => hn (hiff.mpr hr))
  rw [isStable_eq, hm, bind_error]
  exact ⟨m, rfl⟩

/-- Non-vacuity of C16: both answers occur. -/
example : isStable exampleRS 0 10 (1 / 2) 1 = .ok true
    ∧ isStable exampleRS 0 7 (1 / 2) 1 = .ok false := by
  have hs := C07_separatrix exampleRS (1 / 2) 1 (by norm_num) (by norm_num) (by norm_num) le_rfl
  constructor
  · exact ((C16_threshold exampleRS 0 (1 / 2) 1).2.1 10 _ hs).mpr (by norm_num)
  · have := (C16_threshold exampleRS 0 (1 / 2) 1).2.2.1 _ hs
    norm_num at this
    exact this

end KGP
