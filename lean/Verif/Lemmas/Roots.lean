import Verif.Model.Constants
import Verif.Spec.Kerr
import Mathlib.Tactic.Linarith
import Mathlib.Tactic.FieldSimp
import Mathlib.Tactic.LinearCombination

/-! # Lemmas on `Polynomial(...).roots()` -/

namespace KGP

open Classical Polynomial

/-- The real polynomial behind `npPoly`. -/
noncomputable def npPolyR (c : List ℝ) : ℝ[X] :=
  ∑ i : Fin c.length, Polynomial.C (c[i]) * Polynomial.X ^ (i : ℕ)

lemma npPoly_eq_map (c : List ℝ) : npPoly c = (npPolyR c).map Complex.ofRealHom := by
  simp [npPoly, npPolyR, Polynomial.map_sum]

lemma npPoly_of_real_factor {c : List ℝ} {lead : ℝ} {l : List ℝ}
    (h : ∀ r : ℝ, (npPolyR c).eval r = lead * (l.map (fun w => r - w)).prod) :
    npPoly c = Polynomial.C (lead : ℂ) * ((l.map Complex.ofReal).map (fun w => X - C w)).prod := by
  have h1 : npPolyR c = C lead * (l.map (fun w => X - C w)).prod := by
    apply Polynomial.funext
    intro r
    rw [h r, eval_mul, eval_C, eval_list_prod]
    simp [List.map_map, Function.comp_def]
  rw [npPoly_eq_map, h1, Polynomial.map_mul, Polynomial.map_list_prod]
  simp [List.map_map, Function.comp_def]

lemma npRoots_of_factor {c : List ℝ} {lead : ℂ} (hl : lead ≠ 0) {l : List ℂ}
    (h : npPoly c = C lead * (l.map (fun w => X - C w)).prod) :
    npRoots c = (l : Multiset ℂ).sort lexLe := by
  unfold npRoots
  congr 1
  rw [h, Polynomial.roots_C_mul _ hl]
  have := Polynomial.roots_multiset_prod_X_sub_C (l : Multiset ℂ)
  simpa using this

lemma npRoots_of_factor_sorted {c : List ℝ} {lead : ℂ} (hl : lead ≠ 0) {l : List ℂ}
    (h : npPoly c = C lead * (l.map (fun w => X - C w)).prod) (hs : l.Pairwise lexLe) :
    npRoots c = l := by
  rw [npRoots_of_factor hl h]
  exact List.Perm.eq_of_pairwise' (Multiset.pairwise_sort _ _) hs
    (by rw [← Multiset.coe_eq_coe]; exact Multiset.sort_eq _ _)

lemma lexLe_ofReal {x y : ℝ} : lexLe (x : ℂ) (y : ℂ) ↔ x ≤ y := by
  simp [lexLe, le_iff_lt_or_eq]

/-- All-real case: the sorted list of real roots. -/
lemma npRoots_of_real {c : List ℝ} {lead : ℝ} (hl : lead ≠ 0) {l : List ℝ}
    (h : ∀ r : ℝ, (npPolyR c).eval r = lead * (l.map (fun w => r - w)).prod)
    (hs : l.Pairwise (· ≤ ·)) : npRoots c = l.map Complex.ofReal := by
  apply npRoots_of_factor_sorted (lead := (lead : ℂ)) (by exact_mod_cast hl)
    (npPoly_of_real_factor h)
  rw [List.pairwise_map]
  exact hs.imp (fun {a b} hab => lexLe_ofReal.mpr hab)

lemma eval_npPolyR_five (c0 c1 c2 c3 c4 r : ℝ) :
    (npPolyR [c0, c1, c2, c3, c4]).eval r
      = c0 + c1 * r + c2 * r ^ 2 + c3 * r ^ 3 + c4 * r ^ 4 := by
  have : npPolyR [c0, c1, c2, c3, c4]
      = ∑ i : Fin 5, C ([c0, c1, c2, c3, c4].get i) * X ^ (i : ℕ) := rfl
  rw [this, Fin.sum_univ_five]
  simp

lemma eval_npPolyR_three (c0 c1 c2 r : ℝ) :
    (npPolyR [c0, c1, c2]).eval r = c0 + c1 * r + c2 * r ^ 2 := by
  have : npPolyR [c0, c1, c2] = ∑ i : Fin 3, C ([c0, c1, c2].get i) * X ^ (i : ℕ) := rfl
  rw [this, Fin.sum_univ_three]
  simp

lemma eval_npPolyR_radial (a E L Q r : ℝ) :
    (npPolyR (radialPoly a E L Q)).eval r = Spec.R a E L Q r := by
  rw [radialPoly, eval_npPolyR_five, Spec.R, Spec.Delta]; ring

lemma eval_npPolyR_polar (a E L Q z : ℝ) :
    (npPolyR (polarPoly a E L Q)).eval z = Spec.Zpol a E L Q z := by
  rw [polarPoly, eval_npPolyR_three, Spec.Zpol]; ring

/-- The radial roots are sorted ascending whenever `R` factors over the reals. -/
lemma npRoots_radial_real {a E L Q lead s0 s1 s2 s3 : ℝ} (hl : lead ≠ 0)
    (h : ∀ r, Spec.R a E L Q r = lead * ((r - s0) * (r - s1) * (r - s2) * (r - s3)))
    (h01 : s0 ≤ s1) (h12 : s1 ≤ s2) (h23 : s2 ≤ s3) :
    npRoots (radialPoly a E L Q) = [(s0 : ℂ), (s1 : ℂ), (s2 : ℂ), (s3 : ℂ)] := by
  have := npRoots_of_real (c := radialPoly a E L Q) hl (l := [s0, s1, s2, s3])
    (fun r => by rw [eval_npPolyR_radial, h]; simp; left; ring)
    (by simp; exact ⟨⟨h01, h01.trans h12, h01.trans (h12.trans h23)⟩, ⟨h12, h12.trans h23⟩, h23⟩)
  simpa using this

lemma npRoots_polar_real {a E L Q lead s0 s1 : ℝ} (hl : lead ≠ 0)
    (h : ∀ z, Spec.Zpol a E L Q z = lead * ((z - s0) * (z - s1))) (h01 : s0 ≤ s1) :
    npRoots (polarPoly a E L Q) = [(s0 : ℂ), (s1 : ℂ)] := by
  have := npRoots_of_real (c := polarPoly a E L Q) hl (l := [s0, s1])
    (fun r => by rw [eval_npPolyR_polar, h]; simp) (by simpa using h01)
  simpa using this

lemma npRoots_polar_linear {a E L Q lead s0 : ℝ} (hl : lead ≠ 0)
    (h : ∀ z, Spec.Zpol a E L Q z = lead * (z - s0)) :
    npRoots (polarPoly a E L Q) = [(s0 : ℂ)] := by
  have := npRoots_of_real (c := polarPoly a E L Q) hl (l := [s0])
    (fun r => by rw [eval_npPolyR_polar, h]; simp) (by simp)
  simpa using this

/-- Complex pair case. -/
lemma npPoly_radial_factor {a E L Q : ℝ} {lead s0 s1 u v : ℝ}
    (h : ∀ r, Spec.R a E L Q r = lead * ((r - s0) * (r - s1) * ((r - u) ^ 2 + v ^ 2))) :
    npPoly (radialPoly a E L Q) = C (lead : ℂ)
      * (([(s0 : ℂ), (s1 : ℂ), ⟨u, v⟩, ⟨u, -v⟩] : List ℂ).map (fun w => X - C w)).prod := by
  have h1 : npPolyR (radialPoly a E L Q)
      = C lead * ((X - C s0) * (X - C s1) * (X ^ 2 - C (2 * u) * X + C (u ^ 2 + v ^ 2))) := by
    apply Polynomial.funext
    intro r
    rw [eval_npPolyR_radial, h]
    simp
    left; left; ring
  have h2 : (X - C (⟨u, v⟩ : ℂ)) * (X - C (⟨u, -v⟩ : ℂ))
      = X ^ 2 - C ((2 * u : ℝ) : ℂ) * X + C ((u ^ 2 + v ^ 2 : ℝ) : ℂ) := by
    have e1 : (⟨u, v⟩ : ℂ) + ⟨u, -v⟩ = ((2 * u : ℝ) : ℂ) := by
      apply Complex.ext <;> simp; ring
    have e2 : (⟨u, v⟩ : ℂ) * ⟨u, -v⟩ = ((u ^ 2 + v ^ 2 : ℝ) : ℂ) := by
      apply Complex.ext
      · rw [Complex.mul_re, Complex.ofReal_re]; ring
      · rw [Complex.mul_im, Complex.ofReal_im]; ring
    rw [← e1, ← e2, C_add, C_mul]; ring
  rw [npPoly_eq_map, h1]
  simp only [List.map_cons, List.map_nil, List.prod_cons, List.prod_nil, mul_one, h2]
  simp [Polynomial.map_mul]
  left; ring

lemma sort_of_perm_sorted {m l : List ℝ} (hp : m.Perm l) (hs : l.Pairwise (· ≤ ·)) :
    (m : Multiset ℝ).sort (· ≤ ·) = l :=
  List.Perm.eq_of_pairwise' (Multiset.pairwise_sort _ _) hs
    ((by rw [← Multiset.coe_eq_coe]; exact Multiset.sort_eq _ _ :
      ((m : Multiset ℝ).sort (· ≤ ·)).Perm m).trans hp)

lemma realRoots_four {s0 s1 s2 s3 : ℝ} (h01 : s0 ≤ s1) (h12 : s1 ≤ s2) (h23 : s2 ≤ s3) :
    realRoots [(s0 : ℂ), (s1 : ℂ), (s2 : ℂ), (s3 : ℂ)] = [s0, s1, s2, s3] := by
  unfold realRoots
  apply sort_of_perm_sorted
  · simp
  · simp; exact ⟨⟨h01, h01.trans h12, h01.trans (h12.trans h23)⟩, ⟨h12, h12.trans h23⟩, h23⟩

lemma complexRoots_four {s0 s1 s2 s3 : ℝ} :
    complexRoots [(s0 : ℂ), (s1 : ℂ), (s2 : ℂ), (s3 : ℂ)] = [] := by
  simp [complexRoots]

/-- The roots of `R` when it has two real roots and a conjugate pair. -/
lemma npRoots_radial_cplx {a E L Q lead s0 s1 u v : ℝ} (hl : lead ≠ 0)
    (h : ∀ r, Spec.R a E L Q r = lead * ((r - s0) * (r - s1) * ((r - u) ^ 2 + v ^ 2)))
    (h01 : s0 ≤ s1) (hv : 0 < v) :
    realRoots (npRoots (radialPoly a E L Q)) = [s0, s1] ∧
    complexRoots (npRoots (radialPoly a E L Q)) = [⟨u, -v⟩, ⟨u, v⟩] := by
  have hr := npRoots_of_factor (by exact_mod_cast hl) (npPoly_radial_factor h)
  have hperm : (npRoots (radialPoly a E L Q)).Perm [(s0 : ℂ), (s1 : ℂ), ⟨u, v⟩, ⟨u, -v⟩] := by
    rw [hr, ← Multiset.coe_eq_coe]; exact Multiset.sort_eq _ _
  constructor
  · unfold realRoots
    apply sort_of_perm_sorted
    · refine ((hperm.filter _).map _).trans ?_
      simp [hv.ne']
    · simpa using h01
  · unfold complexRoots
    refine List.Perm.eq_of_pairwise' (r := lexLe) ?_ ?_ ((hperm.filter _).trans ?_)
    · exact List.Pairwise.filter _ (Multiset.pairwise_sort _ _)
    · simp [lexLe]; linarith
    · simp [hv.ne']; exact List.Perm.swap _ _ _

/-! ### From the returned list back to the polynomial -/

/-- Real roots and complex roots together are all the roots. -/
lemma roots_perm (roots : List ℂ) :
    roots.Perm ((realRoots roots).map Complex.ofReal ++ complexRoots roots) := by
  have h1 : (realRoots roots).Perm ((roots.filter (fun z => z.im = 0)).map Complex.re) := by
    unfold realRoots
    rw [← Multiset.coe_eq_coe]; exact Multiset.sort_eq _ _
  have h2 : ((roots.filter (fun z => z.im = 0)).map Complex.re).map Complex.ofReal
      = roots.filter (fun z => z.im = 0) := by
    rw [List.map_map]
    conv_rhs => rw [← List.map_id (roots.filter (fun z => z.im = 0))]
    apply List.map_congr_left
    intro z hz
    have := (List.mem_filter.mp hz).2
    apply Complex.ext <;> simp_all
  have h3 := h1.map Complex.ofReal
  rw [h2] at h3
  refine List.Perm.trans ?_ (h3.symm.append_right _)
  have := (List.filter_append_perm (fun z : ℂ => decide (z.im = 0)) roots).symm
  refine this.trans ?_
  unfold complexRoots
  apply List.Perm.of_eq
  congr 1
  apply List.filter_congr
  intro z _; simp

lemma realRoots_sorted (roots : List ℂ) : (realRoots roots).Pairwise (· ≤ ·) :=
  Multiset.pairwise_sort _ _

lemma complexRoots_im {roots : List ℂ} {w : ℂ} (h : w ∈ complexRoots roots) : w.im ≠ 0 := by
  simpa using (List.mem_filter.mp h).2

lemma npRoots_perm_roots (c : List ℝ) : ((npRoots c : List ℂ) : Multiset ℂ) = (npPoly c).roots :=
  Multiset.sort_eq _ _

/-- The polynomial is the product over the returned roots. -/
lemma eval_npPoly_eq (c : List ℝ) (z : ℂ) :
    (npPoly c).eval z = (npPoly c).leadingCoeff * ((npRoots c).map (fun w => z - w)).prod := by
  have h := IsAlgClosed.splits (npPoly c)
  have h2 := h.eq_prod_roots
  conv_lhs => rw [h2]
  rw [eval_mul, eval_C, ← npRoots_perm_roots, Multiset.map_coe, Multiset.prod_coe, eval_list_prod]
  simp [List.map_map, Function.comp_def]

lemma eval_npPoly_ofReal (c : List ℝ) (r : ℝ) :
    (npPoly c).eval (r : ℂ) = (((npPolyR c).eval r : ℝ) : ℂ) := by
  rw [npPoly_eq_map]
  exact Polynomial.eval_map_apply (f := Complex.ofRealHom) r

lemma natDegree_npPoly (c : List ℝ) : (npPoly c).natDegree = (npPolyR c).natDegree := by
  rw [npPoly_eq_map]
  exact Polynomial.natDegree_map _

lemma leadingCoeff_npPoly (c : List ℝ) :
    (npPoly c).leadingCoeff = ((npPolyR c).leadingCoeff : ℂ) := by
  rw [npPoly_eq_map]
  exact Polynomial.leadingCoeff_map _

lemma npPolyR_five (c0 c1 c2 c3 c4 : ℝ) : npPolyR [c0, c1, c2, c3, c4]
    = C c0 + C c1 * X + C c2 * X ^ 2 + C c3 * X ^ 3 + C c4 * X ^ 4 := by
  have : npPolyR [c0, c1, c2, c3, c4]
      = ∑ i : Fin 5, C ([c0, c1, c2, c3, c4].get i) * X ^ (i : ℕ) := rfl
  rw [this, Fin.sum_univ_five]
  simp

lemma npPolyR_five_lead {c0 c1 c2 c3 c4 : ℝ} (h : c4 ≠ 0) :
    (npPolyR [c0, c1, c2, c3, c4]).leadingCoeff = c4 ∧
    (npPolyR [c0, c1, c2, c3, c4]).natDegree = 4 := by
  rw [npPolyR_five]
  have hd : (C c0 + C c1 * X + C c2 * X ^ 2 + C c3 * X ^ 3 + C c4 * X ^ 4 : ℝ[X]).natDegree
      = 4 := by
    compute_degree!
  refine ⟨?_, hd⟩
  rw [leadingCoeff, hd]
  simp only [coeff_add, coeff_C_mul, coeff_X_pow, coeff_X, coeff_C]
  norm_num

lemma npPolyR_radial_lead {a E L Q : ℝ} (hE : E ^ 2 ≠ 1) :
    (npPolyR (radialPoly a E L Q)).leadingCoeff = E ^ 2 - 1 ∧
    (npPolyR (radialPoly a E L Q)).natDegree = 4 :=
  npPolyR_five_lead (sub_ne_zero.mpr hE)

lemma npRoots_length (c : List ℝ) : (npRoots c).length = (npPolyR c).natDegree := by
  rw [← natDegree_npPoly, (IsAlgClosed.splits (npPoly c)).natDegree_eq_card_roots,
    ← npRoots_perm_roots]
  simp

lemma roots_map_conj (c : List ℝ) :
    (npPoly c).roots.map (starRingEnd ℂ) = (npPoly c).roots := by
  have h := (IsAlgClosed.splits (npPoly c)).roots_map (starRingEnd ℂ)
  rw [← h]
  congr 1
  rw [npPoly_eq_map, Polynomial.map_map]
  congr 1
  ext; simp

/-- Complex roots come in pairs. -/
lemma complexRoots_even (c : List ℝ) : Even (complexRoots (npRoots c)).length := by
  have key : ((npRoots c).filter (fun z => 0 < z.im)).length
      = ((npRoots c).filter (fun z => z.im < 0)).length := by
    have h := congrArg (fun m => Multiset.card (m.filter (fun z : ℂ => 0 < z.im)))
      (roots_map_conj c)
    simp only [Multiset.filter_map, Multiset.card_map] at h
    rw [← npRoots_perm_roots] at h
    simp only [Multiset.filter_coe, Multiset.coe_card, Function.comp_def, Complex.conj_im,
      Left.neg_pos_iff] at h
    exact h.symm
  have h2 : (complexRoots (npRoots c)).length
      = ((npRoots c).filter (fun z => 0 < z.im)).length
        + ((npRoots c).filter (fun z => z.im < 0)).length := by
    unfold complexRoots
    generalize npRoots c = l
    induction l with
    | nil => simp
    | cons z t ih =>
      rcases lt_trichotomy z.im 0 with h | h | h
      · simp [h, h.ne, h.le] at ih ⊢; omega
      · simp [h] at ih ⊢; omega
      · simp [h, h.ne', h.le] at ih ⊢; omega
  rw [h2, key]
  exact ⟨_, rfl⟩

/-- `R` as a product over the returned roots, at real arguments. -/
lemma R_eq_prod {a E L Q : ℝ} (hE : E ^ 2 ≠ 1) (r : ℝ) :
    ((Spec.R a E L Q r : ℝ) : ℂ) = ((E ^ 2 - 1 : ℝ) : ℂ) *
      ((((realRoots (npRoots (radialPoly a E L Q))).map Complex.ofReal
        ++ complexRoots (npRoots (radialPoly a E L Q))).map (fun w => (r : ℂ) - w)).prod) := by
  rw [← eval_npPolyR_radial, ← eval_npPoly_ofReal, eval_npPoly_eq, leadingCoeff_npPoly,
    (npPolyR_radial_lead hE).1]
  congr 1
  exact ((roots_perm _).map _).prod_eq

/-- The three possibilities for the roots of the radial quartic, together with what the code's
classification sees. -/
inductive RadialCase (a E L Q : ℝ) : Prop
  | four (s0 s1 s2 s3 : ℝ) (h01 : s0 ≤ s1) (h12 : s1 ≤ s2) (h23 : s2 ≤ s3)
      (hR : ∀ r, Spec.R a E L Q r = (E ^ 2 - 1) * ((r - s0) * (r - s1) * (r - s2) * (r - s3)))
  | two (s0 s1 u v : ℝ) (h01 : s0 ≤ s1) (hv : 0 < v)
      (hR : ∀ r, Spec.R a E L Q r = (E ^ 2 - 1) * ((r - s0) * (r - s1) * ((r - u) ^ 2 + v ^ 2)))
  | none (hR : ∀ r, Spec.R a E L Q r ≠ 0)
      (hc : (complexRoots (npRoots (radialPoly a E L Q))).length = 4)
      (hr : realRoots (npRoots (radialPoly a E L Q)) = [])

lemma radial_cases {a E L Q : ℝ} (hE : E ^ 2 ≠ 1) : RadialCase a E L Q := by
  have hlen : (realRoots (npRoots (radialPoly a E L Q))).length
      + (complexRoots (npRoots (radialPoly a E L Q))).length = 4 := by
    have := (roots_perm (npRoots (radialPoly a E L Q))).length_eq
    rw [npRoots_length, (npPolyR_radial_lead hE).2] at this
    simpa using this.symm
  have heven := complexRoots_even (radialPoly a E L Q)
  have hs := realRoots_sorted (npRoots (radialPoly a E L Q))
  have hprod := R_eq_prod (a := a) (L := L) (Q := Q) hE
  have hmem : ∀ w ∈ complexRoots (npRoots (radialPoly a E L Q)),
      w.im ≠ 0 ∧ (starRingEnd ℂ) w ∈ complexRoots (npRoots (radialPoly a E L Q)) := by
    intro w hw
    refine ⟨complexRoots_im hw, ?_⟩
    have h1 : w ∈ npRoots (radialPoly a E L Q) := (List.mem_filter.mp hw).1
    have h2 : w ∈ (npPoly (radialPoly a E L Q)).roots := by
      rw [← npRoots_perm_roots]; exact h1
    have h3 : (starRingEnd ℂ) w ∈ (npPoly (radialPoly a E L Q)).roots := by
      rw [← roots_map_conj]; exact Multiset.mem_map_of_mem _ h2
    rw [← npRoots_perm_roots] at h3
    refine List.mem_filter.mpr ⟨h3, ?_⟩
    have := complexRoots_im hw
    simpa using this
  generalize hrr : realRoots (npRoots (radialPoly a E L Q)) = rr at *
  generalize hcc : complexRoots (npRoots (radialPoly a E L Q)) = cc at *
  obtain ⟨k, hk⟩ := heven
  have hk3 : k = 0 ∨ k = 1 ∨ k = 2 := by omega
  rcases hk3 with rfl | rfl | rfl
  · have hc0 : cc = [] := List.length_eq_zero_iff.mp (by omega)
    subst hc0
    obtain ⟨s0, s1, s2, s3, rfl⟩ : ∃ s0 s1 s2 s3, rr = [s0, s1, s2, s3] := by
      rcases rr with _ | ⟨s0, _ | ⟨s1, _ | ⟨s2, _ | ⟨s3, _ | _⟩⟩⟩⟩ <;> simp at hlen
      exact ⟨_, _, _, _, rfl⟩
    simp only [List.pairwise_cons, List.mem_cons, List.not_mem_nil, or_false, forall_eq_or_imp,
      forall_eq, List.Pairwise.nil, and_true] at hs
    refine .four s0 s1 s2 s3 hs.1.1 hs.2.1.1 hs.2.2.1 (fun r => ?_)
    have := hprod r
    simp only [List.append_nil, List.map_cons, List.map_nil, List.prod_cons, List.prod_nil,
      mul_one] at this
    have h2 : Spec.R a E L Q r = (E ^ 2 - 1) * ((r - s0) * ((r - s1) * ((r - s2) * (r - s3)))) := by
      exact_mod_cast this
    rw [h2]; ring
  · obtain ⟨w0, w1, rfl⟩ : ∃ w0 w1, cc = [w0, w1] := by
      rcases cc with _ | ⟨s0, _ | ⟨s1, _ | _⟩⟩ <;> simp at hk
      exact ⟨_, _, rfl⟩
    obtain ⟨s0, s1, rfl⟩ : ∃ s0 s1, rr = [s0, s1] := by
      rcases rr with _ | ⟨s0, _ | ⟨s1, _ | _⟩⟩ <;> simp at hlen
      exact ⟨_, _, rfl⟩
    obtain ⟨him, hcj⟩ := hmem w0 (by simp)
    have hw1 : w1 = (starRingEnd ℂ) w0 := by
      simp only [List.mem_cons, List.not_mem_nil, or_false] at hcj
      rcases hcj with h | h
      · exact absurd (Complex.conj_eq_iff_im.mp h) him
      · exact h.symm
    simp only [List.pairwise_cons, List.mem_cons, List.not_mem_nil, or_false,
      forall_eq, List.Pairwise.nil, and_true] at hs
    refine .two s0 s1 w0.re |w0.im| hs.1 (abs_pos.mpr him) (fun r => ?_)
    have := hprod r
    simp only [List.map_cons, List.map_nil, List.prod_cons, List.prod_nil, List.cons_append,
      List.nil_append, mul_one, hw1] at this
    have hc : ((r : ℂ) - w0) * ((r : ℂ) - (starRingEnd ℂ) w0)
        = (((r - w0.re) ^ 2 + w0.im ^ 2 : ℝ) : ℂ) := by
      apply Complex.ext
      · simp only [Complex.mul_re, Complex.sub_re, Complex.sub_im, Complex.conj_re,
          Complex.conj_im, Complex.ofReal_re, Complex.ofReal_im]; ring
      · simp only [Complex.mul_im, Complex.sub_re, Complex.sub_im, Complex.conj_re,
          Complex.conj_im, Complex.ofReal_re, Complex.ofReal_im]; ring
    rw [hc] at this
    have h2 : Spec.R a E L Q r
        = (E ^ 2 - 1) * ((r - s0) * ((r - s1) * ((r - w0.re) ^ 2 + w0.im ^ 2))) := by
      exact_mod_cast this
    rw [h2, sq_abs]; ring
  · have hr0 : rr = [] := List.length_eq_zero_iff.mp (by omega)
    subst hr0
    refine .none (fun r h0 => ?_) (by rw [hcc]; exact hk) hrr
    have := hprod r
    rw [h0] at this
    simp only [Complex.ofReal_zero, List.map_nil, List.nil_append] at this
    have hE' : ((E ^ 2 - 1 : ℝ) : ℂ) ≠ 0 := by exact_mod_cast sub_ne_zero.mpr hE
    have h3 := (mul_eq_zero.mp this.symm).resolve_left hE'
    rw [List.prod_eq_zero_iff] at h3
    obtain ⟨w, hw, hw0⟩ := List.mem_map.mp h3
    have : w = (r : ℂ) := (sub_eq_zero.mp hw0).symm
    exact (hmem w hw).1 (by rw [this]; simp)

end KGP
