import Verif.Lemmas.SepCertDefs
import Mathlib.Tactic.FieldSimp

/-!
# `N ≥ 0` at `1 + e ≤ p ≤ 4`: third coefficient

Certificate in the Bernstein basis (found by a search, checked by `positivity` and `ring`).
-/

namespace KGP.SepCert

set_option maxRecDepth 100000 in
set_option maxHeartbeats 4000000 in
lemma N_b2 {e A s : ℝ} (he : 0 ≤ e) (he1 : e ≤ 1) (hA : 0 ≤ A) (hA1 : A ≤ 1) (hs : 0 ≤ s) (hs1 : s ≤ 1) :
    0 ≤ N ((1 + e) + (3 - e) * s) A e 1 := by
  obtain ⟨f, hf'⟩ : ∃ f, f = 1 - e := ⟨_, rfl⟩
  obtain ⟨B, hB'⟩ : ∃ B, B = 1 - A := ⟨_, rfl⟩
  obtain ⟨t, ht'⟩ : ∃ t, t = 1 - s := ⟨_, rfl⟩
  have hf : 0 ≤ f := by linarith
  have hB : 0 ≤ B := by linarith
  have ht : 0 ≤ t := by linarith
  have key : 0 ≤ t^6*(B^3*(5*f^6 + 56*e*f^5 + 260*e^2*f^4 + 640*e^3*f^3 + 880*e^4*f^2 + 640*e^5*f + 192*e^6)
        + A*B^2*(8*f^6 + 96*e*f^5 + 476*e^2*f^4 + 1248*e^3*f^3 + 1824*e^4*f^2 + 1408*e^5*f + 448*e^6)
        + A^2*B*(4*f^6 + 48*e*f^5 + 240*e^2*f^4 + 640*e^3*f^3 + 960*e^4*f^2 + 768*e^5*f + 256*e^6))
      + s*t^5*(B^3*(102*f^6 + 1044*e*f^5 + 4400*e^2*f^4 + 9760*e^3*f^3 + 12000*e^4*f^2 + 7744*e^5*f + 2048*e^6)
        + A*B^2*(192*f^6 + 2052*e*f^5 + 9008*e^2*f^4 + 20768*e^3*f^3 + 26496*e^4*f^2 + 17728*e^5*f + 4864*e^6)
        + A^2*B*(96*f^6 + 1104*e*f^5 + 5120*e^2*f^4 + 12288*e^3*f^3 + 16128*e^4*f^2 + 11008*e^5*f + 3072*e^6)
        + A^3*(48*e*f^5 + 368*e^2*f^4 + 1088*e^3*f^3 + 1536*e^4*f^2 + 1024*e^5*f + 256*e^6))
      + s^2*t^4*(B^3*(840*f^6 + 7800*e*f^5 + 29680*e^2*f^4 + 59200*e^3*f^3 + 65280*e^4*f^2 + 37760*e^5*f + 8960*e^6)
        + A*B^2*(1785*f^6 + 16992*e*f^5 + 66112*e^2*f^4 + 134560*e^3*f^3 + 151248*e^4*f^2 + 89216*e^5*f + 21632*e^6)
        + A^2*B*(1068*f^6 + 10704*e*f^5 + 43192*e^2*f^4 + 89984*e^3*f^3 + 102400*e^4*f^2 + 60672*e^5*f + 14720*e^6)
        + A^3*(108*f^6 + 1392*e*f^5 + 6400*e^2*f^4 + 14144*e^3*f^3 + 16192*e^4*f^2 + 9216*e^5*f + 2048*e^6))
      + s^3*t^3*(B^3*(3520*f^6 + 29440*e*f^5 + 100800*e^2*f^4 + 181120*e^3*f^3 + 180480*e^4*f^2 + 94720*e^5*f + 20480*e^6)
        + A*B^2*(8188*f^6 + 69240*e*f^5 + 239040*e^2*f^4 + 432384*e^3*f^3 + 433728*e^4*f^2 + 229504*e^5*f + 50176*e^6)
        + A^2*B*(5768*f^6 + 49800*e*f^5 + 174032*e^2*f^4 + 316224*e^3*f^3 + 316672*e^4*f^2 + 166528*e^5*f + 36096*e^6)
        + A^3*(1080*f^6 + 9840*e*f^5 + 35312*e^2*f^4 + 64320*e^3*f^3 + 63104*e^4*f^2 + 31744*e^5*f + 6400*e^6))
      + s^4*t^2*(B^3*(7680*f^6 + 57600*e*f^5 + 177920*e^2*f^4 + 290560*e^3*f^3 + 264960*e^4*f^2 + 128000*e^5*f + 25600*e^6)
        + A*B^2*(19056*f^6 + 142992*e*f^5 + 440864*e^2*f^4 + 718208*e^3*f^3 + 653952*e^4*f^2 + 316160*e^5*f + 63488*e^6)
        + A^2*B*(14955*f^6 + 112344*e*f^5 + 344996*e^2*f^4 + 557760*e^3*f^3 + 502608*e^4*f^2 + 240000*e^5*f + 47552*e^6)
        + A^3*(3564*f^6 + 26832*e*f^5 + 81692*e^2*f^4 + 129632*e^3*f^3 + 113376*e^4*f^2 + 51840*e^5*f + 9664*e^6))
      + s^5*t*(B^3*(7680*f^6 + 52224*e*f^5 + 148480*e^2*f^4 + 225280*e^3*f^3 + 192000*e^4*f^2 + 87040*e^5*f + 16384*e^6)
        + A*B^2*(19776*f^6 + 133632*e*f^5 + 377152*e^2*f^4 + 568192*e^3*f^3 + 481536*e^4*f^2 + 217600*e^5*f + 40960*e^6)
        + A^2*B*(16422*f^6 + 109956*e*f^5 + 306784*e^2*f^4 + 456224*e^3*f^3 + 381280*e^4*f^2 + 169792*e^5*f + 31488*e^6)
        + A^3*(4320*f^6 + 28500*e*f^5 + 77968*e^2*f^4 + 113120*e^3*f^3 + 91648*e^4*f^2 + 39232*e^5*f + 6912*e^6))
      + s^6*(B^3*(2048*f^6 + 14336*e*f^5 + 40960*e^2*f^4 + 61440*e^3*f^3 + 51200*e^4*f^2 + 22528*e^5*f + 4096*e^6)
        + A*B^2*(5120*f^6 + 36096*e*f^5 + 103168*e^2*f^4 + 154368*e^3*f^3 + 128256*e^4*f^2 + 56320*e^5*f + 10240*e^6)
        + A^2*B*(4072*f^6 + 29016*e*f^5 + 82928*e^2*f^4 + 123392*e^3*f^3 + 101632*e^4*f^2 + 44160*e^5*f + 7936*e^6)
        + A^3*(999*f^6 + 7248*e*f^5 + 20696*e^2*f^4 + 30432*e^3*f^3 + 24560*e^4*f^2 + 10368*e^5*f + 1792*e^6)) := by positivity
  refine le_of_le_of_eq key ?_
  simp only [N, G, H, SepCert.B, D, K, g]
  rw [ht', hB', hf']
  ring

end KGP.SepCert
