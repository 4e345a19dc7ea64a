import Verif.Lemmas.SepCertDefs

/-!
# Certificate for the equatorial prograde bracket end

The long right-hand sides are Bernstein expansions with non-negative coefficients (found outside
Lean); `ring` checks the identities and `positivity` the signs.
-/

namespace KGP.SepCert

set_option maxRecDepth 100000
set_option maxHeartbeats 4000000

/-! ### The equatorial prograde end -/

set_option maxHeartbeats 4000000 in
lemma prograde_core (e t w : ℝ) (he : 0 ≤ e) (ht : 0 ≤ t) (ht1 : t ≤ 1) (hw : 0 ≤ w)
    (hw1 : w ≤ 1) (p : ℝ) (hp : p = (1 + e) * (1 + 2 * t - t ^ 2) + 4 * t ^ 2) :
    0 ≤ ((1 + e) * (2 * p * (3 + e) - 4 * ((1 - e) * (1 + e) * (1 - t) ^ 2)
          + p * ((3 - e) * (1 - t) ^ 2) - p ^ 2) * (p - (3 - e) * (1 - t) ^ 2 * w)
        + (1 - t) ^ 2 * w * (p * (3 + e) - (1 - e) * (1 + e) * (1 - t) ^ 2 * w)
          * (2 * ((3 - e) * (1 + e)) + (1 - e) * (1 + e) * (1 - t) ^ 2 - p * (3 + e))) ^ 2
      - 8 * (1 - t) ^ 2 * (1 + e) ^ 2 * (1 - w)
        * ((p * (3 - e) - 2 * (1 - e) * (1 + e)) * (p - (3 - e) * (1 - t) ^ 2 * w)
          + (1 - e) * (1 - t) ^ 2 * w * (p * (3 + e) - (1 - e) * (1 + e) * (1 - t) ^ 2 * w))
        * (p * (p * (3 + e) - (1 - e) * (1 + e) * (1 - t) ^ 2 * w)
          - (1 - e) * (1 + e) * (1 - t) ^ 2 * (p - (3 - e) * (1 - t) ^ 2 * w)) := by
  obtain ⟨u, hu'⟩ : ∃ u, u = 1 - t := ⟨_, rfl⟩
  obtain ⟨X, hX'⟩ : ∃ X, X = 1 - w := ⟨_, rfl⟩
  have hu : 0 ≤ u := by linarith
  have hX : 0 ≤ X := by linarith
  have key : 0 ≤ w * t ^ 2 * u ^ 2 * (
      (X^3*(t*u^7*384 + t^2*u^6*4992 + t^3*u^5*29952 + t^4*u^4*105216 + t^5*u^3*231936 +
      t^6*u^2*317952 + t^7*u*248832 + t^8*82944) + w*X^2*(t*u^7*1024 + t^2*u^6*14400 +
      t^3*u^5*89856 + t^4*u^4*322048 + t^5*u^3*712704 + t^6*u^2*969984 + t^7*u*746496 +
      t^8*248832) + w^2*X*(t*u^7*512 + t^2*u^6*11520 + t^3*u^5*84480 + t^4*u^4*323840 +
      t^5*u^3*729600 + t^6*u^2*986112 + t^7*u*746496 + t^8*248832) + w^3*(t^2*u^6*2304 +
      t^3*u^5*24576 + t^4*u^4*107008 + t^5*u^3*248832 + t^6*u^2*334080 + t^7*u*248832 +
      t^8*82944)) + e*(X^3*(u^8*384 + t*u^7*7040 + t^2*u^6*56576 + t^3*u^5*260352 +
      t^4*u^4*751616 + t^5*u^3*1389056 + t^6*u^2*1594368 + t^7*u*1022976 + t^8*276480) +
      w*X^2*(u^8*1024 + t*u^7*20224 + t^2*u^6*168960 + t^3*u^5*793856 + t^4*u^4*2307072 +
      t^5*u^3*4249600 + t^6*u^2*4826112 + t^7*u*3068928 + t^8*829440) + w^2*X*(u^8*512 +
      t*u^7*15872 + t^2*u^6*156160 + t^3*u^5*788480 + t^4*u^4*2350080 + t^5*u^3*4332032 +
      t^6*u^2*4869120 + t^7*u*3068928 + t^8*829440) + w^3*(t*u^7*3072 + t^2*u^6*44032 +
      t^3*u^5*254976 + t^4*u^4*794624 + t^5*u^3*1471488 + t^6*u^2*1637376 + t^7*u*1022976 +
      t^8*276480)) + e^2*(X^3*(u^8*1664 + t*u^7*26112 + t^2*u^6*183424 + t^3*u^5*743936 +
      t^4*u^4*1886976 + t^5*u^3*3033088 + t^6*u^2*2975232 + t^7*u*1603584 + t^8*359424) +
      w*X^2*(u^8*5376 + t*u^7*84480 + t^2*u^6*590720 + t^3*u^5*2371072 + t^4*u^4*5924096 +
      t^5*u^3*9349120 + t^6*u^2*9015808 + t^7*u*4810752 + t^8*1078272) + w^2*X*(u^8*4608 +
      t*u^7*82944 + t^2*u^6*611840 + t^3*u^5*2491392 + t^4*u^4*6182400 + t^5*u^3*9598976 +
      t^6*u^2*9105920 + t^7*u*4810752 + t^8*1078272) + w^3*(u^8*1024 + t*u^7*24576 +
      t^2*u^6*204288 + t^3*u^5*864256 + t^4*u^4*2145280 + t^5*u^3*3282944 + t^6*u^2*3065344 +
      t^7*u*1603584 + t^8*359424)) + e^3*(X^3*(u^8*2816 + t*u^7*41728 + t^2*u^6*270848 +
      t^3*u^5*998912 + t^4*u^4*2265088 + t^5*u^3*3193856 + t^6*u^2*2697216 + t^7*u*1234944 +
      t^8*233472) + w*X^2*(u^8*10752 + t*u^7*151552 + t^2*u^6*942592 + t^3*u^5*3339776 +
      t^4*u^4*7292416 + t^5*u^3*9945088 + t^6*u^2*8195072 + t^7*u*3704832 + t^8*700416) +
      w^2*X*(u^8*12288 + t*u^7*174080 + t^2*u^6*1068544 + t^3*u^5*3686400 + t^4*u^4*7794176 +
      t^5*u^3*10308608 + t^6*u^2*8298496 + t^7*u*3704832 + t^8*700416) + w^3*(u^8*4096 +
      t*u^7*63488 + t^2*u^6*396288 + t^3*u^5*1345536 + t^4*u^4*2766848 + t^5*u^3*3557376 +
      t^6*u^2*2800640 + t^7*u*1234944 + t^8*233472)) + e^4*(X^3*(u^8*2304 + t*u^7*33152 +
      t^2*u^6*202880 + t^3*u^5*687360 + t^4*u^4*1399040 + t^5*u^3*1733120 + t^6*u^2*1267200 +
      t^7*u*498688 + t^8*80896) + w*X^2*(u^8*10240 + t*u^7*134656 + t^2*u^6*761408 +
      t^3*u^5*2406144 + t^4*u^4*4610560 + t^5*u^3*5447680 + t^6*u^2*3859712 + t^7*u*1496064 +
      t^8*242688) + w^2*X*(u^8*14336 + t*u^7*175616 + t^2*u^6*931584 + t^3*u^5*2771456 +
      t^4*u^4*5032704 + t^5*u^3*5696000 + t^6*u^2*3917824 + t^7*u*1496064 + t^8*242688) +
      w^3*(u^8*6144 + t*u^7*73728 + t^2*u^6*372992 + t^3*u^5*1052672 + t^4*u^4*1821184 +
      t^5*u^3*1981440 + t^6*u^2*1325312 + t^7*u*498688 + t^8*80896)) + e^5*(X^3*(u^8*896 +
      t*u^7*12672 + t^2*u^6*73984 + t^3*u^5*231680 + t^4*u^4*423936 + t^5*u^3*463360 +
      t^6*u^2*295936 + t^7*u*101376 + t^8*14336) + w*X^2*(u^8*4608 + t*u^7*57600 +
      t^2*u^6*299520 + t^3*u^5*847104 + t^4*u^4*1426944 + t^5*u^3*1468416 + t^6*u^2*903168 +
      t^7*u*304128 + t^8*43008) + w^2*X*(u^8*7680 + t*u^7*84480 + t^2*u^6*393216 +
      t^3*u^5*1013760 + t^4*u^4*1586688 + t^5*u^3*1546752 + t^6*u^2*918528 + t^7*u*304128 +
      t^8*43008) + w^3*(u^8*4096 + t*u^7*39936 + t^2*u^6*167936 + t^3*u^5*398336 +
      t^4*u^4*583680 + t^5*u^3*541696 + t^6*u^2*311296 + t^7*u*101376 + t^8*14336)) +
      e^6*(X^3*(u^8*128 + t*u^7*1792 + t^2*u^6*10112 + t^3*u^5*29696 + t^4*u^4*49408 +
      t^5*u^3*48128 + t^6*u^2*27136 + t^7*u*8192 + t^8*1024) + w*X^2*(u^8*768 + t*u^7*9216 +
      t^2*u^6*44544 + t^3*u^5*113664 + t^4*u^4*169728 + t^5*u^3*153600 + t^6*u^2*82944 +
      t^7*u*24576 + t^8*3072) + w^2*X*(u^8*1536 + t*u^7*15360 + t^2*u^6*62976 + t^3*u^5*141312
      + t^4*u^4*192000 + t^5*u^3*162816 + t^6*u^2*84480 + t^7*u*24576 + t^8*3072) +
      w^3*(u^8*1024 + t*u^7*8192 + t^2*u^6*28672 + t^3*u^5*57344 + t^4*u^4*71680 +
      t^5*u^3*57344 + t^6*u^2*28672 + t^7*u*8192 + t^8*1024))) := by
    positivity
  refine le_of_le_of_eq key ?_
  rw [hp, hu', hX']
  ring

end KGP.SepCert
