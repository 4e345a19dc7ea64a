import Verif.Lemmas.SepCertDefs

/-!
# Certificate for the polar polynomial at `a = 1`

The long right-hand sides are Bernstein expansions with non-negative coefficients (found outside
Lean); `ring` checks the identities and `positivity` the signs.
-/

namespace KGP.SepCert

set_option maxRecDepth 100000
set_option maxHeartbeats 4000000

lemma polar_at_one (q e : ℝ) (he : 0 ≤ e) (he1 : e ≤ 1) (hq : 21 / 4 ≤ q)
    (hq4 : q ^ 4 - 4 * q ^ 3 - 6 * q ^ 2 - 4 * q + 1 = 0) : polarOne q e ≤ 0 := by
  obtain ⟨y, hy'⟩ : ∃ y, y = q - 21 / 4 := ⟨_, rfl⟩
  obtain ⟨f, hf'⟩ : ∃ f, f = 1 - e := ⟨_, rfl⟩
  have hy : 0 ≤ y := by linarith
  have hf : 0 ≤ f := by linarith
  have key : 0 ≤ e * (
      (f^5*(2979233/512) + e*f^4*(13987167/512) + e^2*f^3*(13183017/256) +
        e^3*f^2*(12460115/256) + e^4*f*(11799213/512) + e^5*(2236571/512)) +
      y*(f^5*(777797/128) + e*f^4*(3705857/128) + e^2*f^3*(3540441/64) + e^3*f^2*(3390593/64) +
        e^4*f*(3254425/128) + e^5*(626061/128)) +
      y^2*(f^5*(39941/16) + e*f^4*(192743/16) + e^2*f^3*(186253/8) + e^3*f^2*(180211/8) +
        e^4*f*(174593/16) + e^5*(33875/16)) +
      y^3*(f^5*(2021/4) + e*f^4*(9869/4) + e^2*f^3*(9641/2) + e^3*f^2*(9421/2) +
        e^4*f*(9209/4) + e^5*(1801/4)) +
      y^4*(f^5*(101/2) + e*f^4*(499/2) + e^2*f^3*493 + e^3*f^2*487 + e^4*f*(481/2) +
        e^5*(95/2)) +
      y^5*(f^5*2 + e*f^4*10 + e^2*f^3*20 + e^3*f^2*20 + e^4*f*10 + e^5*2)) := by
    positivity
  have h0 : polarOne q e = (q - 1) ^ 2 * (q ^ 4 - 4 * q ^ 3 - 6 * q ^ 2 - 4 * q + 1) - e * (
      (f^5*(2979233/512) + e*f^4*(13987167/512) + e^2*f^3*(13183017/256) +
        e^3*f^2*(12460115/256) + e^4*f*(11799213/512) + e^5*(2236571/512)) +
      y*(f^5*(777797/128) + e*f^4*(3705857/128) + e^2*f^3*(3540441/64) + e^3*f^2*(3390593/64) +
        e^4*f*(3254425/128) + e^5*(626061/128)) +
      y^2*(f^5*(39941/16) + e*f^4*(192743/16) + e^2*f^3*(186253/8) + e^3*f^2*(180211/8) +
        e^4*f*(174593/16) + e^5*(33875/16)) +
      y^3*(f^5*(2021/4) + e*f^4*(9869/4) + e^2*f^3*(9641/2) + e^3*f^2*(9421/2) +
        e^4*f*(9209/4) + e^5*(1801/4)) +
      y^4*(f^5*(101/2) + e*f^4*(499/2) + e^2*f^3*493 + e^3*f^2*487 + e^4*f*(481/2) +
        e^5*(95/2)) +
      y^5*(f^5*2 + e*f^4*10 + e^2*f^3*20 + e^3*f^2*20 + e^4*f*10 + e^5*2)) := by
    simp only [polarOne]
    rw [hf', hy']
    ring
  rw [h0, hq4]
  linarith

end KGP.SepCert
