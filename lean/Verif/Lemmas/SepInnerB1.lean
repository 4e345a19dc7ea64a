import Verif.Lemmas.SepCertDefs
import Mathlib.Tactic.FieldSimp

/-!
# `N ≥ 0` at `1 + e ≤ p ≤ 4`: second coefficient

Certificate in the Bernstein basis (found by a search, checked by `positivity` and `ring`).
-/

namespace KGP.SepCert

set_option maxRecDepth 100000 in
set_option maxHeartbeats 4000000 in
lemma N_b1 {e A s : ℝ} (he : 0 ≤ e) (he1 : e ≤ 1) (hA : 0 ≤ A) (hA1 : A ≤ 1) (hs : 0 ≤ s) (hs1 : s ≤ 1) :
    0 ≤ 4 * N ((1 + e) + (3 - e) * s) A e (1 / 2) - N ((1 + e) + (3 - e) * s) A e 0 - N ((1 + e) + (3 - e) * s) A e 1 := by
  obtain ⟨f, hf'⟩ : ∃ f, f = 1 - e := ⟨_, rfl⟩
  obtain ⟨B, hB'⟩ : ∃ B, B = 1 - A := ⟨_, rfl⟩
  obtain ⟨t, ht'⟩ : ∃ t, t = 1 - s := ⟨_, rfl⟩
  have hf : 0 ≤ f := by linarith
  have hB : 0 ≤ B := by linarith
  have ht : 0 ≤ t := by linarith
  have key : 0 ≤ t^6*(B^2*(10*f^6 + 112*e*f^5 + 520*e^2*f^4 + 1280*e^3*f^3 + 1760*e^4*f^2 + 1280*e^5*f + 384*e^6)
        + A*B*(12*f^6 + 144*e*f^5 + 716*e^2*f^4 + 1888*e^3*f^3 + 2784*e^4*f^2 + 2176*e^5*f + 704*e^6)
        + A^2*(8*f^6 + 80*e*f^5 + 336*e^2*f^4 + 768*e^3*f^3 + 1024*e^4*f^2 + 768*e^5*f + 256*e^6))
      + s*t^5*(B^2*(204*f^6 + 2088*e*f^5 + 8800*e^2*f^4 + 19520*e^3*f^3 + 24000*e^4*f^2 + 15488*e^5*f + 4096*e^6)
        + A*B*(288*f^6 + 3072*e*f^5 + 13496*e^2*f^4 + 31232*e^3*f^3 + 40128*e^4*f^2 + 27136*e^5*f + 7552*e^6)
        + A^2*(120*f^6 + 1248*e*f^5 + 5352*e^2*f^4 + 12128*e^3*f^3 + 15360*e^4*f^2 + 10368*e^5*f + 2944*e^6))
      + s^2*t^4*(B^2*(1680*f^6 + 15600*e*f^5 + 59360*e^2*f^4 + 118400*e^3*f^3 + 130560*e^4*f^2 + 75520*e^5*f + 17920*e^6)
        + A*B*(2664*f^6 + 25296*e*f^5 + 98428*e^2*f^4 + 200928*e^3*f^3 + 227232*e^4*f^2 + 135296*e^5*f + 33216*e^6)
        + A^2*(1020*f^6 + 9936*e*f^5 + 39300*e^2*f^4 + 80928*e^3*f^3 + 91872*e^4*f^2 + 54912*e^5*f + 13632*e^6))
      + s^3*t^3*(B^2*(7040*f^6 + 58880*e*f^5 + 201600*e^2*f^4 + 362240*e^3*f^3 + 360960*e^4*f^2 + 189440*e^5*f + 40960*e^6)
        + A*B*(12120*f^6 + 102288*e*f^5 + 353280*e^2*f^4 + 640960*e^3*f^3 + 646656*e^4*f^2 + 345088*e^5*f + 76288*e^6)
        + A^2*(4984*f^6 + 42688*e*f^5 + 148848*e^2*f^4 + 271360*e^3*f^3 + 274176*e^4*f^2 + 146432*e^5*f + 32512*e^6))
      + s^4*t^2*(B^2*(15360*f^6 + 115200*e*f^5 + 355840*e^2*f^4 + 581120*e^3*f^3 + 529920*e^4*f^2 + 256000*e^5*f + 51200*e^6)
        + A*B*(27936*f^6 + 209568*e*f^5 + 647168*e^2*f^4 + 1058048*e^3*f^3 + 968832*e^4*f^2 + 472064*e^5*f + 95744*e^6)
        + A^2*(12342*f^6 + 92688*e*f^5 + 285900*e^2*f^4 + 466208*e^3*f^3 + 425472*e^4*f^2 + 206720*e^5*f + 41920*e^6))
      + s^5*t*(B^2*(15360*f^6 + 104448*e*f^5 + 296960*e^2*f^4 + 450560*e^3*f^3 + 384000*e^4*f^2 + 174080*e^5*f + 32768*e^6)
        + A*B*(28800*f^6 + 195072*e*f^5 + 552064*e^2*f^4 + 834816*e^3*f^3 + 711168*e^4*f^2 + 323584*e^5*f + 61440*e^6)
        + A^2*(13260*f^6 + 89352*e*f^5 + 251232*e^2*f^4 + 377376*e^3*f^3 + 319488*e^4*f^2 + 144640*e^5*f + 27392*e^6))
      + s^6*(B^2*(4096*f^6 + 28672*e*f^5 + 81920*e^2*f^4 + 122880*e^3*f^3 + 102400*e^4*f^2 + 45056*e^5*f + 8192*e^6)
        + A*B*(7680*f^6 + 53760*e*f^5 + 153088*e^2*f^4 + 228864*e^3*f^3 + 190464*e^4*f^2 + 83968*e^5*f + 15360*e^6)
        + A^2*(3536*f^6 + 24752*e*f^5 + 70176*e^2*f^4 + 104320*e^3*f^3 + 86336*e^4*f^2 + 37888*e^5*f + 6912*e^6)) := by positivity
  refine le_of_le_of_eq key ?_
  simp only [N, G, H, SepCert.B, D, K, g]
  rw [ht', hB', hf']
  ring

end KGP.SepCert
