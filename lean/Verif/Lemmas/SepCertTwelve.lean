import Verif.Lemmas.SepCertDefs

/-!
# Certificate for the upper bracket end 12

The long right-hand sides are Bernstein expansions with non-negative coefficients (found outside
Lean); `ring` checks the identities and `positivity` the signs.
-/

namespace KGP.SepCert

set_option maxRecDepth 100000
set_option maxHeartbeats 4000000

/-! ### Upper end 12 -/

set_option maxHeartbeats 4000000 in
lemma twelve (A e X : ℝ) (hA : 0 ≤ A) (hA1 : A ≤ 1) (he1 : e ≤ 1) (hX : 0 ≤ X)
    (hX1 : X ≤ 1) :
    0 ≤ N 12 A e (1 - X) ^ 2 - 8 * A * X * M1 12 A e (1 - X) * M2 12 A e (1 - X) := by
  obtain ⟨A1, hA1'⟩ : ∃ A1, A1 = 1 - A := ⟨_, rfl⟩
  obtain ⟨f, hf'⟩ : ∃ f, f = 1 - e := ⟨_, rfl⟩
  obtain ⟨w, hw'⟩ : ∃ w, w = 1 - X := ⟨_, rfl⟩
  have hA1'' : 0 ≤ A1 := by linarith
  have hf : 0 ≤ f := by linarith
  have hw : 0 ≤ w := by linarith
  have key : N 12 A e (1 - X) ^ 2 - 8 * A * X * M1 12 A e (1 - X) * M2 12 A e (1 - X) =
      A1^6*(w^4*(990677827584 + f*990677827584 + f^2*247669456896) + X*w^3*(3962711310336 +
      f*3962711310336 + f^2*990677827584) + X^2*w^2*(5944066965504 + f*5944066965504 +
      f^2*1486016741376) + X^3*w*(3962711310336 + f*3962711310336 + f^2*990677827584) +
      X^4*(990677827584 + f*990677827584 + f^2*247669456896)) + A*A1^5*(w^4*(6274292908032 +
      f*5833991651328 + f^2*1417219670016 + f^3*48157949952 + f^4*6879707136) +
      X*w^3*(23941380833280 + f*23693711376384 + f^2*5778953994240 + f^3*165112971264 +
      f^4*20639121408) + X^2*w^2*(34178385051648 + f*36077184221184 + f^2*8833543962624 +
      f^3*206391214080 + f^4*20639121408) + X^3*w*(21629799235584 + f*24409200918528 +
      f^2*5999104622592 + f^3*110075314176 + f^4*6879707136) + X^4*(5118502109184 +
      f*6191736422400 + f^2*1527294984192 + f^3*20639121408)) + A^2*A1^4*(w^4*(16543402426368 +
      f*14256282009600 + f^2*3406601650176 + f^3*233910042624 + f^4*32057524224 + f^5*859963392
      + f^6*71663616) + X*w^3*(60325858639872 + f*58932335738880 + f^2*14103399628800 +
      f^3*806645661696 + f^4*99373547520 + f^5*2293235712 + f^6*143327232) +
      X^2*w^2*(81760732839936 + f*91194340147200 + f^2*21904987521024 + f^3*1014756802560 +
      f^4*103004504064 + f^5*2006581248 + f^6*71663616) + X^3*w*(48717499465728 +
      f*62616801116160 + f^2*15126182756352 + f^3*545216790528 + f^4*36118462464 +
      f^5*573308928) + X^4*(10739222839296 + f*16098514698240 + f^2*3917993213952 +
      f^3*103195607040 + f^4*429981696)) + A^3*A1^3*(w^4*(23245001588736 + f*18496474841088 +
      f^2*4410826555392 + f^3*451555098624 + f^4*60473475072 + f^5*3272638464 + f^6*265420800 +
      f^7*7299072 + f^8*331776) + X*w^3*(81144999051264 + f*78043079245824 + f^2*18442403315712
      + f^3*1571514089472 + f^4*192971538432 + f^5*8762867712 + f^6*564019200 + f^7*13271040 +
      f^8*331776) + X^2*w^2*(104140420153344 + f*122886156976128 + f^2*29006214856704 +
      f^3*1993777348608 + f^4*206478802944 + f^5*7735689216 + f^6*310542336 + f^7*5971968) +
      X^3*w*(57825849507840 + f*85629803692032 + f^2*20327050248192 + f^3*1080209571840 +
      f^4*75700666368 + f^5*2245459968 + f^6*11943936) + X^4*(11585426817024 + f*22290251120640
      + f^2*5352412151808 + f^3*206391214080 + f^4*1719926784)) + A^4*A1^2*(w^4*(18357357182976
      + f*13431458562048 + f^2*3250077843456 + f^3*432709042176 + f^4*57939738624 +
      f^5*4620607488 + f^6*378464256 + f^7*20090880 + f^8*956160 + f^9*29952 + f^10*576) +
      X*w^3*(61452994609152 + f*58031633793024 + f^2*13636244865024 + f^3*1525723250688 +
      f^4*189130235904 + f^5*12489707520 + f^6*847024128 + f^7*36854784 + f^8*1133568 +
      f^9*27648) + X^2*w^2*(74479714762752 + f*93103257157632 + f^2*21633918566400 +
      f^3*1956695408640 + f^4*207806902272 + f^5*11162271744 + f^6*504797184 + f^7*16920576 +
      f^8*124416) + X^3*w*(38029874429952 + f*65839943909376 + f^2*15354933018624 +
      f^3*1070081114112 + f^4*79188295680 + f^5*3296526336 + f^6*35831808) + X^4*(6645797093376
      + f*17336861982720 + f^2*4107185160192 + f^3*206391214080 + f^4*2579890176)) +
      A^5*A1*(w^4*(7725921730560 + f*5172729348096 + f^2*1294001086464 + f^3*205602902016 +
      f^4*28291203072 + f^5*2862483456 + f^6*247802880 + f^7*18063360 + f^8*978432 + f^9*51072
      + f^10*1440 + f^11*48) + X*w^3*(24843790319616 + f*22971083784192 + f^2*5408175366144 +
      f^3*737921802240 + f^4*93644752896 + f^5*7863459840 + f^6*575506944 + f^7*33790464 +
      f^8*1307520 + f^9*48384 + f^10*576) + X^2*w^2*(28353576960000 + f*37603884662784 +
      f^2*8617523281920 + f^3*959129911296 + f^4*104999804928 + f^5*7143800832 + f^6*364621824
      + f^7*15925248 + f^8*248832) + X^3*w*(13079469883392 + f*26987944476672 +
      f^2*6181990170624 + f^3*530024103936 + f^4*41349906432 + f^5*2149908480 + f^6*35831808) +
      X^4*(1843761512448 + f*7182414249984 + f^2*1678648541184 + f^3*103195607040 +
      f^4*1719926784)) + A^6*(w^4*(1353778790400 + f*824777441280 + f^2*217698361344 +
      f^3*38696865792 + f^4*5647122688 + f^5*654550016 + f^6*63097600 + f^7*5269760 +
      f^8*355168 + f^9*20672 + f^10*976 + f^11*32 + f^12*1) + X*w^3*(4188605644800 +
      f*3781193564160 + f^2*899210354688 + f^3*142179950592 + f^4*18751629312 + f^5*1843384320
      + f^6*149174784 + f^7*10206720 + f^8*505728 + f^9*20736 + f^10*576) +
      X^2*w^2*(4487867596800 + f*6325561589760 + f^2*1432359272448 + f^3*187846262784 +
      f^4*21306322944 + f^5*1710637056 + f^6*98703360 + f^7*4976640 + f^8*124416) +
      X^3*w*(1825033420800 + f*4607492751360 + f^2*1036351438848 + f^3*105011085312 +
      f^4*8623521792 + f^5*525533184 + f^6*11943936) + X^4*(171992678400 + f*1238347284480 +
      f^2*285507846144 + f^3*20639121408 + f^4*429981696)) := by
    have he : e = 1 - f := by linarith
    simp only [N, M1, M2, G, H, B, D, K, g]
    rw [he, hA1', hw']
    ring
  rw [key]
  positivity

end KGP.SepCert
