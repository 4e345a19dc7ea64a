import Verif.Lemmas.SepCertDefs

/-!
# Certificate for the polar bracket end: a lower bound of `M1`

The long right-hand sides are Bernstein expansions with non-negative coefficients (found outside
Lean); `ring` checks the identities and `positivity` the signs.
-/

namespace KGP.SepCert

set_option maxRecDepth 100000
set_option maxHeartbeats 4000000

lemma m1_lower (y A e w : ℝ) (hy : 0 ≤ y) (hA : 0 ≤ A) (hA1 : A ≤ 1) (he : 0 ≤ e) (he1 : e ≤ 1)
    (hw : 0 ≤ w) (hw1 : w ≤ 1) :
    (1 + e) * (3 / 2 * (21 / 4 + y) ^ 4) ≤ M1 (21 / 4 + y) A e w := by
  obtain ⟨A1, hA1'⟩ : ∃ A1, A1 = 1 - A := ⟨_, rfl⟩
  obtain ⟨f, hf'⟩ : ∃ f, f = 1 - e := ⟨_, rfl⟩
  obtain ⟨X, hX'⟩ : ∃ X, X = 1 - w := ⟨_, rfl⟩
  have hA1'' : 0 ≤ A1 := by linarith
  have hf : 0 ≤ f := by linarith
  have hX : 0 ≤ X := by linarith
  have key : 0 ≤ (1 + e) * (
      (A1^2*(f^5*(X^2*(435267/512) + w*X*(435267/256) + w^2*(435267/512)) +
      e*f^4*(X^2*(1787373/512) + w*X*(1787373/256) + w^2*(1787373/512)) +
      e^2*f^3*(X^2*(1472499/256) + w*X*(1472499/128) + w^2*(1472499/256)) +
      e^3*f^2*(X^2*(1231713/256) + w*X*(1231713/128) + w^2*(1231713/256)) +
      e^4*f*(X^2*(1065015/512) + w*X*(1065015/256) + w^2*(1065015/512)) + e^5*(X^2*(194481/512)
      + w*X*(194481/256) + w^2*(194481/512))) + A*A1*(f^5*(X^2*(435267/256) + w*X*(418131/128)
      + w^2*(400995/256)) + e*f^4*(X^2*(1787373/256) + w*X*(1697325/128) + w^2*(1607277/256)) +
      e^2*f^3*(X^2*(1472499/128) + w*X*(1378923/64) + w^2*(1285347/128)) +
      e^3*f^2*(X^2*(1231713/128) + w*X*(1130577/64) + w^2*(1029441/128)) +
      e^4*f*(X^2*(1065015/256) + w*X*(948759/128) + w^2*(832503/256)) + e^5*(X^2*(194481/256) +
      w*X*(166257/128) + w^2*(138033/256))) + A^2*(f^5*(X^2*(435267/512) + w*X*(400995/256) +
      w^2*(366211/512)) + e*f^4*(X^2*(1787373/512) + w*X*(1607277/256) + w^2*(1424109/512)) +
      e^2*f^3*(X^2*(1472499/256) + w*X*(1285347/128) + w^2*(1095123/256)) +
      e^3*f^2*(X^2*(1231713/256) + w*X*(1029441/128) + w^2*(825121/256)) +
      e^4*f*(X^2*(1065015/512) + w*X*(832503/256) + w^2*(599991/512)) + e^5*(X^2*(194481/512) +
      w*X*(138033/256) + w^2*(81585/512)))) + y*(A1^2*(f^5*(X^2*(22491/32) + w*X*(22491/16) +
      w^2*(22491/32)) + e*f^4*(X^2*(93933/32) + w*X*(93933/16) + w^2*(93933/32)) +
      e^2*f^3*(X^2*(78057/16) + w*X*(78057/8) + w^2*(78057/16)) + e^3*f^2*(X^2*(64827/16) +
      w*X*(64827/8) + w^2*(64827/16)) + e^4*f*(X^2*(54243/32) + w*X*(54243/16) +
      w^2*(54243/32)) + e^5*(X^2*(9261/32) + w*X*(9261/16) + w^2*(9261/32))) +
      A*A1*(f^5*(X^2*(22491/16) + w*X*(22035/8) + w^2*(21579/16)) + e*f^4*(X^2*(93933/16) +
      w*X*(91517/8) + w^2*(89101/16)) + e^2*f^3*(X^2*(78057/8) + w*X*(75557/4) + w^2*(73057/8))
      + e^3*f^2*(X^2*(64827/8) + w*X*(62195/4) + w^2*(59563/8)) + e^4*f*(X^2*(54243/16) +
      w*X*(51347/8) + w^2*(48451/16)) + e^5*(X^2*(9261/16) + w*X*(8589/8) + w^2*(7917/16))) +
      A^2*(f^5*(X^2*(22491/32) + w*X*(21579/16) + w^2*(20667/32)) + e*f^4*(X^2*(93933/32) +
      w*X*(89101/16) + w^2*(84269/32)) + e^2*f^3*(X^2*(78057/16) + w*X*(73057/8) +
      w^2*(68057/16)) + e^3*f^2*(X^2*(64827/16) + w*X*(59563/8) + w^2*(54299/16)) +
      e^4*f*(X^2*(54243/32) + w*X*(48451/16) + w^2*(42659/32)) + e^5*(X^2*(9261/32) +
      w*X*(7917/16) + w^2*(6573/32)))) + y^2*(A1^2*(f^5*(X^2*(3465/16) + w*X*(3465/8) +
      w^2*(3465/16)) + e*f^4*(X^2*(14679/16) + w*X*(14679/8) + w^2*(14679/16)) +
      e^2*f^3*(X^2*(12285/8) + w*X*(12285/4) + w^2*(12285/8)) + e^3*f^2*(X^2*(10143/8) +
      w*X*(10143/4) + w^2*(10143/8)) + e^4*f*(X^2*(8253/16) + w*X*(8253/8) + w^2*(8253/16)) +
      e^5*(X^2*(1323/16) + w*X*(1323/8) + w^2*(1323/16))) + A*A1*(f^5*(X^2*(3465/8) +
      w*X*(3441/4) + w^2*(3417/8)) + e*f^4*(X^2*(14679/8) + w*X*(14551/4) + w^2*(14423/8)) +
      e^2*f^3*(X^2*(12285/4) + w*X*(12153/2) + w^2*(12021/4)) + e^3*f^2*(X^2*(10143/4) +
      w*X*(10007/2) + w^2*(9871/4)) + e^4*f*(X^2*(8253/8) + w*X*(8109/4) + w^2*(7965/8)) +
      e^5*(X^2*(1323/8) + w*X*(1291/4) + w^2*(1259/8))) + A^2*(f^5*(X^2*(3465/16) +
      w*X*(3417/8) + w^2*(3369/16)) + e*f^4*(X^2*(14679/16) + w*X*(14423/8) + w^2*(14167/16)) +
      e^2*f^3*(X^2*(12285/8) + w*X*(12021/4) + w^2*(11757/8)) + e^3*f^2*(X^2*(10143/8) +
      w*X*(9871/4) + w^2*(9599/8)) + e^4*f*(X^2*(8253/16) + w*X*(7965/8) + w^2*(7677/16)) +
      e^5*(X^2*(1323/16) + w*X*(1259/8) + w^2*(1195/16)))) + y^3*(A1^2*(f^5*(X^2*(59/2) +
      w*X*59 + w^2*(59/2)) + e*f^4*(X^2*(253/2) + w*X*253 + w^2*(253/2)) + e^2*f^3*(X^2*213 +
      w*X*426 + w^2*213) + e^3*f^2*(X^2*175 + w*X*350 + w^2*175) + e^4*f*(X^2*(139/2) + w*X*139
      + w^2*(139/2)) + e^5*(X^2*(21/2) + w*X*21 + w^2*(21/2))) + A*A1*(f^5*(X^2*59 + w*X*118 +
      w^2*59) + e*f^4*(X^2*253 + w*X*506 + w^2*253) + e^2*f^3*(X^2*426 + w*X*852 + w^2*426) +
      e^3*f^2*(X^2*350 + w*X*700 + w^2*350) + e^4*f*(X^2*139 + w*X*278 + w^2*139) + e^5*(X^2*21
      + w*X*42 + w^2*21)) + A^2*(f^5*(X^2*(59/2) + w*X*59 + w^2*(59/2)) + e*f^4*(X^2*(253/2) +
      w*X*253 + w^2*(253/2)) + e^2*f^3*(X^2*213 + w*X*426 + w^2*213) + e^3*f^2*(X^2*175 +
      w*X*350 + w^2*175) + e^4*f*(X^2*(139/2) + w*X*139 + w^2*(139/2)) + e^5*(X^2*(21/2) +
      w*X*21 + w^2*(21/2)))) + y^4*(A1^2*(f^5*(X^2*(3/2) + w*X*3 + w^2*(3/2)) +
      e*f^4*(X^2*(13/2) + w*X*13 + w^2*(13/2)) + e^2*f^3*(X^2*11 + w*X*22 + w^2*11) +
      e^3*f^2*(X^2*9 + w*X*18 + w^2*9) + e^4*f*(X^2*(7/2) + w*X*7 + w^2*(7/2)) + e^5*(X^2*(1/2)
      + w*X*1 + w^2*(1/2))) + A*A1*(f^5*(X^2*3 + w*X*6 + w^2*3) + e*f^4*(X^2*13 + w*X*26 +
      w^2*13) + e^2*f^3*(X^2*22 + w*X*44 + w^2*22) + e^3*f^2*(X^2*18 + w*X*36 + w^2*18) +
      e^4*f*(X^2*7 + w*X*14 + w^2*7) + e^5*(X^2*1 + w*X*2 + w^2*1)) + A^2*(f^5*(X^2*(3/2) +
      w*X*3 + w^2*(3/2)) + e*f^4*(X^2*(13/2) + w*X*13 + w^2*(13/2)) + e^2*f^3*(X^2*11 + w*X*22
      + w^2*11) + e^3*f^2*(X^2*9 + w*X*18 + w^2*9) + e^4*f*(X^2*(7/2) + w*X*7 + w^2*(7/2)) +
      e^5*(X^2*(1/2) + w*X*1 + w^2*(1/2))))) := by
    positivity
  rw [← sub_nonneg]
  refine le_of_le_of_eq key ?_
  simp only [M1, B, D, K, g]
  rw [hA1', hf', hX']
  ring

end KGP.SepCert
