import Verif.Lemmas.SepCertDefs

/-!
# Certificate for the polar bracket end: `nt` is not negative

The long right-hand sides are Bernstein expansions with non-negative coefficients (found outside
Lean); `ring` checks the identities and `positivity` the signs.
-/

namespace KGP.SepCert

set_option maxRecDepth 100000
set_option maxHeartbeats 4000000

lemma nt_nonneg (y A e w : ℝ) (hy : 0 ≤ y) (hA : 0 ≤ A) (hA1 : A ≤ 1) (he : 0 ≤ e) (he1 : e ≤ 1)
    (hw : 0 ≤ w) (hw1 : w ≤ 1) :
    0 ≤ nt (21 / 4 + y) A e w := by
  obtain ⟨A1, hA1'⟩ : ∃ A1, A1 = 1 - A := ⟨_, rfl⟩
  obtain ⟨f, hf'⟩ : ∃ f, f = 1 - e := ⟨_, rfl⟩
  obtain ⟨X, hX'⟩ : ∃ X, X = 1 - w := ⟨_, rfl⟩
  have hA1'' : 0 ≤ A1 := by linarith
  have hf : 0 ≤ f := by linarith
  have hX : 0 ≤ X := by linarith
  have key : 0 ≤
      (A1^2*(f^6*(X*(583443/128) + w*(583443/128)) + e*f^5*(X*(972405/32) + w*(972405/32)) +
      e^2*f^4*(X*(1361367/16) + w*(1361367/16)) + e^3*f^3*(X*(4084101/32) + w*(4084101/32)) +
      e^4*f^2*(X*(13808151/128) + w*(13808151/128)) + e^5*f*(X*(194481/4) + w*(194481/4)) +
      e^6*(X*(583443/64) + w*(583443/64))) + A*A1*(f^6*(X*(586719/64) + w*(583443/64)) +
      e*f^5*(X*(978243/16) + w*(972405/16)) + e^2*f^4*(X*(2740857/16) + w*(1362249/8)) +
      e^3*f^3*(X*(4117365/16) + w*(4094685/16)) + e^4*f^2*(X*(13962711/64) + w*(13899879/64)) +
      e^5*f*(X*(197673/2) + w*(197127/2)) + e^6*(X*(597555/32) + w*(597555/32))) +
      A^2*(f^6*(X*(590123/128) + w*(583699/128)) + e*f^5*(X*(984337/32) + w*(972917/32)) +
      e^2*f^4*(X*(689937/8) + w*(1363899/16)) + e^3*f^3*(X*(4151653/32) + w*(4107317/32)) +
      e^4*f^2*(X*(14119319/128) + w*(13995703/128)) + e^5*f*(X*(200865/4) + w*(199773/4)) +
      e^6*(X*(611667/64) + w*(611667/64)))) + y*(A1^2*(f^6*(X*(27783/8) + w*(27783/8)) +
      e*f^5*(X*(46305/2) + w*(46305/2)) + e^2*f^4*(X*64827 + w*64827) + e^3*f^3*(X*(194481/2) +
      w*(194481/2)) + e^4*f^2*(X*(657531/8) + w*(657531/8)) + e^5*f*(X*37044 + w*37044) +
      e^6*(X*(27783/4) + w*(27783/4))) + A*A1*(f^6*(X*(27885/4) + w*(27783/4)) + e*f^5*(X*46490
      + w*46305) + e^2*f^4*(X*(260443/2) + w*129696) + e^3*f^3*(X*195465 + w*194733) +
      e^4*f^2*(X*(661723/4) + w*(659715/4)) + e^5*f*(X*74728 + w*74592) + e^6*(X*(28119/2) +
      w*(28119/2))) + A^2*(f^6*(X*(27987/8) + w*(27783/8)) + e*f^5*(X*(46675/2) + w*(46305/2))
      + e^2*f^4*(X*(130789/2) + w*64869) + e^3*f^3*(X*(196449/2) + w*(194985/2)) +
      e^4*f^2*(X*(665915/8) + w*(661899/8)) + e^5*f*(X*37684 + w*37548) + e^6*(X*(28455/4) +
      w*(28455/4)))) + y^2*(A1^2*(f^6*(X*(3969/4) + w*(3969/4)) + e*f^5*(X*6615 + w*6615) +
      e^2*f^4*(X*18522 + w*18522) + e^3*f^3*(X*27783 + w*27783) + e^4*f^2*(X*(93933/4) +
      w*(93933/4)) + e^5*f*(X*10584 + w*10584) + e^6*(X*(3969/2) + w*(3969/2))) +
      A*A1*(f^6*(X*(3975/2) + w*(3969/2)) + e*f^5*(X*13252 + w*13230) + e^2*f^4*(X*37111 +
      w*37048) + e^3*f^3*(X*55678 + w*55590) + e^4*f^2*(X*(94157/2) + w*(94037/2)) +
      e^5*f*(X*21232 + w*21216) + e^6*(X*3985 + w*3985)) + A^2*(f^6*(X*(3981/4) + w*(3969/4)) +
      e*f^5*(X*6637 + w*6615) + e^2*f^4*(X*18589 + w*18526) + e^3*f^3*(X*27895 + w*27807) +
      e^4*f^2*(X*(94381/4) + w*(94141/4)) + e^5*f*(X*10648 + w*10632) + e^6*(X*(4001/2) +
      w*(4001/2)))) + y^3*(A1^2*(f^6*(X*126 + w*126) + e*f^5*(X*840 + w*840) + e^2*f^4*(X*2352
      + w*2352) + e^3*f^3*(X*3528 + w*3528) + e^4*f^2*(X*2982 + w*2982) + e^5*f*(X*1344 +
      w*1344) + e^6*(X*252 + w*252)) + A*A1*(f^6*(X*252 + w*252) + e*f^5*(X*1680 + w*1680) +
      e^2*f^4*(X*4704 + w*4704) + e^3*f^3*(X*7056 + w*7056) + e^4*f^2*(X*5964 + w*5964) +
      e^5*f*(X*2688 + w*2688) + e^6*(X*504 + w*504)) + A^2*(f^6*(X*126 + w*126) + e*f^5*(X*840
      + w*840) + e^2*f^4*(X*2352 + w*2352) + e^3*f^3*(X*3528 + w*3528) + e^4*f^2*(X*2982 +
      w*2982) + e^5*f*(X*1344 + w*1344) + e^6*(X*252 + w*252))) + y^4*(A1^2*(f^6*(X*6 + w*6) +
      e*f^5*(X*40 + w*40) + e^2*f^4*(X*112 + w*112) + e^3*f^3*(X*168 + w*168) + e^4*f^2*(X*142
      + w*142) + e^5*f*(X*64 + w*64) + e^6*(X*12 + w*12)) + A*A1*(f^6*(X*12 + w*12) +
      e*f^5*(X*80 + w*80) + e^2*f^4*(X*224 + w*224) + e^3*f^3*(X*336 + w*336) + e^4*f^2*(X*284
      + w*284) + e^5*f*(X*128 + w*128) + e^6*(X*24 + w*24)) + A^2*(f^6*(X*6 + w*6) +
      e*f^5*(X*40 + w*40) + e^2*f^4*(X*112 + w*112) + e^3*f^3*(X*168 + w*168) + e^4*f^2*(X*142
      + w*142) + e^5*f*(X*64 + w*64) + e^6*(X*12 + w*12))) := by
    positivity
  refine le_of_le_of_eq key ?_
  simp only [nt, G, H, K, g]
  rw [hA1', hf', hX']
  ring

/-! ### Lower end of the polar bracket -/

end KGP.SepCert
