import Verif.Lemmas.SepCertDefs
import Mathlib.Tactic.FieldSimp

/-!
# `N ≥ 0` at `1 + e ≤ p ≤ 4`: first coefficient

Certificate in the Bernstein basis (found by a search, checked by `positivity` and `ring`).
-/

namespace KGP.SepCert

set_option maxRecDepth 100000 in
set_option maxHeartbeats 4000000 in
lemma N_b0 {e A s : ℝ} (he : 0 ≤ e) (he1 : e ≤ 1) (hA : 0 ≤ A) (hA1 : A ≤ 1) (hs : 0 ≤ s) (hs1 : s ≤ 1) :
    0 ≤ N ((1 + e) + (3 - e) * s) A e 0 := by
  obtain ⟨f, hf'⟩ : ∃ f, f = 1 - e := ⟨_, rfl⟩
  obtain ⟨B, hB'⟩ : ∃ B, B = 1 - A := ⟨_, rfl⟩
  obtain ⟨t, ht'⟩ : ∃ t, t = 1 - s := ⟨_, rfl⟩
  have hf : 0 ≤ f := by linarith
  have hB : 0 ≤ B := by linarith
  have ht : 0 ≤ t := by linarith
  have key : 0 ≤ t^6*(B*(5*f^6 + 56*e*f^5 + 260*e^2*f^4 + 640*e^3*f^3 + 880*e^4*f^2 + 640*e^5*f + 192*e^6)
        + A*(4*f^6 + 48*e*f^5 + 240*e^2*f^4 + 640*e^3*f^3 + 960*e^4*f^2 + 768*e^5*f + 256*e^6))
      + s*t^5*(B*(102*f^6 + 1044*e*f^5 + 4400*e^2*f^4 + 9760*e^3*f^3 + 12000*e^4*f^2 + 7744*e^5*f + 2048*e^6)
        + A*(96*f^6 + 1020*e*f^5 + 4488*e^2*f^4 + 10464*e^3*f^3 + 13632*e^4*f^2 + 9408*e^5*f + 2688*e^6))
      + s^2*t^4*(B*(840*f^6 + 7800*e*f^5 + 29680*e^2*f^4 + 59200*e^3*f^3 + 65280*e^4*f^2 + 37760*e^5*f + 8960*e^6)
        + A*(879*f^6 + 8304*e*f^5 + 32316*e^2*f^4 + 66368*e^3*f^3 + 75984*e^4*f^2 + 46080*e^5*f + 11584*e^6))
      + s^3*t^3*(B*(3520*f^6 + 29440*e*f^5 + 100800*e^2*f^4 + 181120*e^3*f^3 + 180480*e^4*f^2 + 94720*e^5*f + 20480*e^6)
        + A*(3932*f^6 + 33048*e*f^5 + 114240*e^2*f^4 + 208576*e^3*f^3 + 212928*e^4*f^2 + 115584*e^5*f + 26112*e^6))
      + s^4*t^2*(B*(7680*f^6 + 57600*e*f^5 + 177920*e^2*f^4 + 290560*e^3*f^3 + 264960*e^4*f^2 + 128000*e^5*f + 25600*e^6)
        + A*(8880*f^6 + 66576*e*f^5 + 206304*e^2*f^4 + 339840*e^3*f^3 + 314880*e^4*f^2 + 155904*e^5*f + 32256*e^6))
      + s^5*t*(B*(7680*f^6 + 52224*e*f^5 + 148480*e^2*f^4 + 225280*e^3*f^3 + 192000*e^4*f^2 + 87040*e^5*f + 16384*e^6)
        + A*(9024*f^6 + 61440*e*f^5 + 174912*e^2*f^4 + 266624*e^3*f^3 + 229632*e^4*f^2 + 105984*e^5*f + 20480*e^6))
      + s^6*(B*(2048*f^6 + 14336*e*f^5 + 40960*e^2*f^4 + 61440*e^3*f^3 + 51200*e^4*f^2 + 22528*e^5*f + 4096*e^6)
        + A*(2560*f^6 + 17664*e*f^5 + 49920*e^2*f^4 + 74496*e^3*f^3 + 62208*e^4*f^2 + 27648*e^5*f + 5120*e^6)) := by positivity
  refine le_of_le_of_eq key ?_
  simp only [N, G, H, SepCert.B, D, K, g]
  rw [ht', hB', hf']
  ring

end KGP.SepCert
