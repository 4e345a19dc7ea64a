import Verif.Lemmas.SepInnerB0
import Verif.Lemmas.SepInnerB1
import Verif.Lemmas.SepInnerB2
import Mathlib.Tactic.FieldSimp

/-!
# `N ≥ 0` for `1 + e ≤ p ≤ 4`

Certificates in the Bernstein basis (found by a search, checked by `positivity` and `ring`).
-/

namespace KGP.SepCert

lemma N_nonneg_inner {p A e w : ℝ} (hA : 0 ≤ A) (hA1 : A ≤ 1) (he : 0 ≤ e) (he1 : e ≤ 1) (hw : 0 ≤ w)
    (hw1 : w ≤ 1) (hp : 1 + e ≤ p) (hp4 : p ≤ 4) : 0 ≤ N p A e w := by
  have h3 : 0 < 3 - e := by linarith
  obtain ⟨s, hs⟩ : ∃ s, s = (p - 1 - e) / (3 - e) := ⟨_, rfl⟩
  have hs0 : 0 ≤ s := by rw [hs]; exact div_nonneg (by linarith) h3.le
  have hs1 : s ≤ 1 := by rw [hs, div_le_one h3]; linarith
  have hps : p = (1 + e) + (3 - e) * s := by rw [hs]; field_simp; ring
  have k0 := N_b0 he he1 hA hA1 hs0 hs1
  have k1 := N_b1 he he1 hA hA1 hs0 hs1
  have k2 := N_b2 he he1 hA hA1 hs0 hs1
  rw [← hps] at k0 k1 k2
  have hX : 0 ≤ 1 - w := by linarith
  have key : N p A e w = N p A e 0 * (1 - w) ^ 2
      + (4 * N p A e (1 / 2) - N p A e 0 - N p A e 1) * (w * (1 - w)) + N p A e 1 * w ^ 2 := by
    simp only [N, B, D]; ring
  rw [key]
  have := mul_nonneg k1 (mul_nonneg hw hX)
  positivity

end KGP.SepCert
