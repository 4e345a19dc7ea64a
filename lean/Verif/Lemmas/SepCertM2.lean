import Verif.Lemmas.SepCertDefs

/-!
# Certificate for the polar bracket end: a lower bound of `M2`

The long right-hand sides are Bernstein expansions with non-negative coefficients (found outside
Lean); `ring` checks the identities and `positivity` the signs.
-/

namespace KGP.SepCert

set_option maxRecDepth 100000
set_option maxHeartbeats 4000000

lemma m2_lower (y A e w : ℝ) (hy : 0 ≤ y) (hA : 0 ≤ A) (hA1 : A ≤ 1) (he : 0 ≤ e) (he1 : e ≤ 1)
    (hw : 0 ≤ w) (hw1 : w ≤ 1) :
    (21 / 4 + y) * (5 / 2 * (21 / 4 + y) ^ 4) ≤ M2 (21 / 4 + y) A e w := by
  obtain ⟨A1, hA1'⟩ : ∃ A1, A1 = 1 - A := ⟨_, rfl⟩
  obtain ⟨f, hf'⟩ : ∃ f, f = 1 - e := ⟨_, rfl⟩
  obtain ⟨X, hX'⟩ : ∃ X, X = 1 - w := ⟨_, rfl⟩
  have hA1'' : 0 ≤ A1 := by linarith
  have hf : 0 ≤ f := by linarith
  have hX : 0 ≤ X := by linarith
  have key : 0 ≤ (21 / 4 + y) * (
      (A1^2*(f^5*(X*(194481/512) + w*(194481/512)) + e*f^4*(X*(1361367/512) + w*(1361367/512))
      + e^2*f^3*(X*(1750329/256) + w*(1750329/256)) + e^3*f^2*(X*(2139291/256) +
      w*(2139291/256)) + e^4*f*(X*(2528253/512) + w*(2528253/512)) + e^5*(X*(583443/512) +
      w*(583443/512))) + A*A1*(f^5*(X*(187425/256) + w*(180369/256)) + e*f^4*(X*(1319031/256) +
      w*(1276695/256)) + e^2*f^3*(X*(1704465/128) + w*(1658601/128)) + e^3*f^2*(X*(2096955/128)
      + w*(2054619/128)) + e^4*f*(X*(2500029/256) + w*(2471805/256)) + e^5*(X*(583443/256) +
      w*(583443/256))) + A^2*(f^5*(X*(180369/512) + w*(167793/512)) + e*f^4*(X*(1276695/512) +
      w*(1202263/512)) + e^2*f^3*(X*(1658601/256) + w*(1579161/256)) + e^3*f^2*(X*(2054619/256)
      + w*(1982235/256)) + e^4*f*(X*(2471805/512) + w*(2423549/512)) + e^5*(X*(583443/512) +
      w*(583443/512)))) + y*(A1^2*(f^5*(X*(9261/32) + w*(9261/32)) + e*f^4*(X*(64827/32) +
      w*(64827/32)) + e^2*f^3*(X*(83349/16) + w*(83349/16)) + e^3*f^2*(X*(101871/16) +
      w*(101871/16)) + e^4*f*(X*(120393/32) + w*(120393/32)) + e^5*(X*(27783/32) +
      w*(27783/32))) + A*A1*(f^5*(X*(9093/16) + w*(8925/16)) + e*f^4*(X*(63819/16) +
      w*(62811/16)) + e^2*f^3*(X*(82257/8) + w*(81165/8)) + e^3*f^2*(X*(100863/8) +
      w*(99855/8)) + e^4*f*(X*(119721/16) + w*(119049/16)) + e^5*(X*(27783/16) + w*(27783/16)))
      + A^2*(f^5*(X*(8925/32) + w*(8589/32)) + e*f^4*(X*(62811/32) + w*(60795/32)) +
      e^2*f^3*(X*(81165/16) + w*(78981/16)) + e^3*f^2*(X*(99855/16) + w*(97839/16)) +
      e^4*f*(X*(119049/32) + w*(117705/32)) + e^5*(X*(27783/32) + w*(27783/32)))) +
      y^2*(A1^2*(f^5*(X*(1323/16) + w*(1323/16)) + e*f^4*(X*(9261/16) + w*(9261/16)) +
      e^2*f^3*(X*(11907/8) + w*(11907/8)) + e^3*f^2*(X*(14553/8) + w*(14553/8)) +
      e^4*f*(X*(17199/16) + w*(17199/16)) + e^5*(X*(3969/16) + w*(3969/16))) +
      A*A1*(f^5*(X*(1315/8) + w*(1307/8)) + e*f^4*(X*(9213/8) + w*(9165/8)) +
      e^2*f^3*(X*(11855/4) + w*(11803/4)) + e^3*f^2*(X*(14505/4) + w*(14457/4)) +
      e^4*f*(X*(17167/8) + w*(17135/8)) + e^5*(X*(3969/8) + w*(3969/8))) +
      A^2*(f^5*(X*(1307/16) + w*(1291/16)) + e*f^4*(X*(9165/16) + w*(9069/16)) +
      e^2*f^3*(X*(11803/8) + w*(11699/8)) + e^3*f^2*(X*(14457/8) + w*(14361/8)) +
      e^4*f*(X*(17135/16) + w*(17071/16)) + e^5*(X*(3969/16) + w*(3969/16)))) +
      y^3*(A1^2*(f^5*(X*(21/2) + w*(21/2)) + e*f^4*(X*(147/2) + w*(147/2)) + e^2*f^3*(X*189 +
      w*189) + e^3*f^2*(X*231 + w*231) + e^4*f*(X*(273/2) + w*(273/2)) + e^5*(X*(63/2) +
      w*(63/2))) + A*A1*(f^5*(X*21 + w*21) + e*f^4*(X*147 + w*147) + e^2*f^3*(X*378 + w*378) +
      e^3*f^2*(X*462 + w*462) + e^4*f*(X*273 + w*273) + e^5*(X*63 + w*63)) + A^2*(f^5*(X*(21/2)
      + w*(21/2)) + e*f^4*(X*(147/2) + w*(147/2)) + e^2*f^3*(X*189 + w*189) + e^3*f^2*(X*231 +
      w*231) + e^4*f*(X*(273/2) + w*(273/2)) + e^5*(X*(63/2) + w*(63/2)))) +
      y^4*(A1^2*(f^5*(X*(1/2) + w*(1/2)) + e*f^4*(X*(7/2) + w*(7/2)) + e^2*f^3*(X*9 + w*9) +
      e^3*f^2*(X*11 + w*11) + e^4*f*(X*(13/2) + w*(13/2)) + e^5*(X*(3/2) + w*(3/2))) +
      A*A1*(f^5*(X*1 + w*1) + e*f^4*(X*7 + w*7) + e^2*f^3*(X*18 + w*18) + e^3*f^2*(X*22 + w*22)
      + e^4*f*(X*13 + w*13) + e^5*(X*3 + w*3)) + A^2*(f^5*(X*(1/2) + w*(1/2)) + e*f^4*(X*(7/2)
      + w*(7/2)) + e^2*f^3*(X*9 + w*9) + e^3*f^2*(X*11 + w*11) + e^4*f*(X*(13/2) + w*(13/2)) +
      e^5*(X*(3/2) + w*(3/2))))) := by
    positivity
  rw [← sub_nonneg]
  refine le_of_le_of_eq key ?_
  simp only [M2, B, D, K, g]
  rw [hA1', hf', hX']
  ring

end KGP.SepCert
