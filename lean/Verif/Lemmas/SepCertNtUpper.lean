import Verif.Lemmas.SepCertDefs

/-!
# Certificate for the polar bracket end: an upper bound of `nt`

The long right-hand sides are Bernstein expansions with non-negative coefficients (found outside
Lean); `ring` checks the identities and `positivity` the signs.
-/

namespace KGP.SepCert

set_option maxRecDepth 100000
set_option maxHeartbeats 4000000

lemma nt_upper (y A e w : ℝ) (hy : 0 ≤ y) (hA : 0 ≤ A) (hA1 : A ≤ 1) (he : 0 ≤ e) (he1 : e ≤ 1)
    (hw : 0 ≤ w) (hw1 : w ≤ 1) :
    nt (21 / 4 + y) A e w ≤ (7 + 6 * e) * (21 / 4 + y) ^ 4 := by
  obtain ⟨A1, hA1'⟩ : ∃ A1, A1 = 1 - A := ⟨_, rfl⟩
  obtain ⟨f, hf'⟩ : ∃ f, f = 1 - e := ⟨_, rfl⟩
  obtain ⟨X, hX'⟩ : ∃ X, X = 1 - w := ⟨_, rfl⟩
  have hA1'' : 0 ≤ A1 := by linarith
  have hf : 0 ≤ f := by linarith
  have hX : 0 ≤ X := by linarith
  have key : 0 ≤
      (A1^2*(f^6*(X*(194481/256) + w*(194481/256)) + e*f^5*(X*(194481/32) + w*(194481/32)) +
      e^2*f^4*(X*(4473063/256) + w*(4473063/256)) + e^3*f^3*(X*(194481/8) + w*(194481/8)) +
      e^4*f^2*(X*(4473063/256) + w*(4473063/256)) + e^5*f*(X*(194481/32) + w*(194481/32)) +
      e^6*(X*(194481/256) + w*(194481/256))) + A*A1*(f^6*(X*(187929/128) + w*(194481/128)) +
      e*f^5*(X*(188643/16) + w*(194481/16)) + e^2*f^4*(X*(4328079/128) + w*(4458951/128)) +
      e^3*f^3*(X*(186165/4) + w*(191835/4)) + e^4*f^2*(X*(4163943/128) + w*(4289607/128)) +
      e^5*f*(X*(168945/16) + w*(173313/16)) + e^6*(X*(138033/128) + w*(138033/128))) +
      A^2*(f^6*(X*(181121/256) + w*(193969/256)) + e*f^5*(X*(182549/32) + w*(193969/32)) +
      e^2*f^4*(X*(4176951/256) + w*(4432551/256)) + e^3*f^3*(X*(177593/8) + w*(188677/8)) +
      e^4*f^2*(X*(3850727/256) + w*(4097959/256)) + e^5*f*(X*(143409/32) + w*(152145/32)) +
      e^6*(X*(81585/256) + w*(81585/256)))) + y*(A1^2*(f^6*(X*(9261/16) + w*(9261/16)) +
      e*f^5*(X*(9261/2) + w*(9261/2)) + e^2*f^4*(X*(213003/16) + w*(213003/16)) +
      e^3*f^3*(X*18522 + w*18522) + e^4*f^2*(X*(213003/16) + w*(213003/16)) + e^5*f*(X*(9261/2)
      + w*(9261/2)) + e^6*(X*(9261/16) + w*(9261/16))) + A*A1*(f^6*(X*(9057/8) + w*(9261/8)) +
      e*f^5*(X*9076 + w*9261) + e^2*f^4*(X*(208463/8) + w*(212667/8)) + e^3*f^3*(X*36060 +
      w*36792) + e^4*f^2*(X*(204619/8) + w*(208635/8)) + e^5*f*(X*8621 + w*8757) +
      e^6*(X*(7917/8) + w*(7917/8))) + A^2*(f^6*(X*(8853/16) + w*(9261/16)) + e*f^5*(X*(8891/2)
      + w*(9261/2)) + e^2*f^4*(X*(203923/16) + w*(212331/16)) + e^3*f^3*(X*17538 + w*18270) +
      e^4*f^2*(X*(196235/16) + w*(204267/16)) + e^5*f*(X*(7981/2) + w*(8253/2)) +
      e^6*(X*(6573/16) + w*(6573/16)))) + y^2*(A1^2*(f^6*(X*(1323/8) + w*(1323/8)) +
      e*f^5*(X*1323 + w*1323) + e^2*f^4*(X*(30429/8) + w*(30429/8)) + e^3*f^3*(X*5292 + w*5292)
      + e^4*f^2*(X*(30429/8) + w*(30429/8)) + e^5*f*(X*1323 + w*1323) + e^6*(X*(1323/8) +
      w*(1323/8))) + A*A1*(f^6*(X*(1311/4) + w*(1323/4)) + e*f^5*(X*2624 + w*2646) +
      e^2*f^4*(X*(30161/4) + w*(30413/4)) + e^3*f^3*(X*10472 + w*10560) + e^4*f^2*(X*(29981/4)
      + w*(30221/4)) + e^5*f*(X*2582 + w*2598) + e^6*(X*(1259/4) + w*(1259/4))) +
      A^2*(f^6*(X*(1299/8) + w*(1323/8)) + e*f^5*(X*1301 + w*1323) + e^2*f^4*(X*(29893/8) +
      w*(30397/8)) + e^3*f^3*(X*5180 + w*5268) + e^4*f^2*(X*(29533/8) + w*(30013/8)) +
      e^5*f*(X*1259 + w*1275) + e^6*(X*(1195/8) + w*(1195/8)))) + y^3*(A1^2*(f^6*(X*21 + w*21)
      + e*f^5*(X*168 + w*168) + e^2*f^4*(X*483 + w*483) + e^3*f^3*(X*672 + w*672) +
      e^4*f^2*(X*483 + w*483) + e^5*f*(X*168 + w*168) + e^6*(X*21 + w*21)) + A*A1*(f^6*(X*42 +
      w*42) + e*f^5*(X*336 + w*336) + e^2*f^4*(X*966 + w*966) + e^3*f^3*(X*1344 + w*1344) +
      e^4*f^2*(X*966 + w*966) + e^5*f*(X*336 + w*336) + e^6*(X*42 + w*42)) + A^2*(f^6*(X*21 +
      w*21) + e*f^5*(X*168 + w*168) + e^2*f^4*(X*483 + w*483) + e^3*f^3*(X*672 + w*672) +
      e^4*f^2*(X*483 + w*483) + e^5*f*(X*168 + w*168) + e^6*(X*21 + w*21))) +
      y^4*(A1^2*(f^6*(X*1 + w*1) + e*f^5*(X*8 + w*8) + e^2*f^4*(X*23 + w*23) + e^3*f^3*(X*32 +
      w*32) + e^4*f^2*(X*23 + w*23) + e^5*f*(X*8 + w*8) + e^6*(X*1 + w*1)) + A*A1*(f^6*(X*2 +
      w*2) + e*f^5*(X*16 + w*16) + e^2*f^4*(X*46 + w*46) + e^3*f^3*(X*64 + w*64) +
      e^4*f^2*(X*46 + w*46) + e^5*f*(X*16 + w*16) + e^6*(X*2 + w*2)) + A^2*(f^6*(X*1 + w*1) +
      e*f^5*(X*8 + w*8) + e^2*f^4*(X*23 + w*23) + e^3*f^3*(X*32 + w*32) + e^4*f^2*(X*23 + w*23)
      + e^5*f*(X*8 + w*8) + e^6*(X*1 + w*1))) := by
    positivity
  rw [← sub_nonneg]
  refine le_of_le_of_eq key ?_
  simp only [nt, G, H, K, g]
  rw [hA1', hf', hX']
  ring

end KGP.SepCert
