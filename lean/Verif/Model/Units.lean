import Verif.Model.Py

/-!
# kerrgeopy/units.py
-/

namespace KGP.Units

/-- units.py:5 -/
noncomputable def c : ℝ := 299792458
/-- units.py:7 -/
noncomputable def G : ℝ := 6.67408e-11
/-- units.py:9 -/
noncomputable def solarMass : ℝ := 1.98847e30

/-- units.py:12-22 -/
noncomputable def massInKg (M : ℝ) : ℝ := M * solarMass
/-- units.py:25-40 -/
noncomputable def distanceInMeters (d M : ℝ) : ℝ := d * G / c ^ 2 * massInKg M
/-- units.py:43-58 -/
noncomputable def distanceInCm (d M : ℝ) : ℝ := distanceInMeters d M * 100
/-- units.py:61-74 -/
noncomputable def distanceInKm (d M : ℝ) : ℝ := distanceInMeters d M / 1000
/-- units.py:77-92 -/
noncomputable def distanceInLightyears (d M : ℝ) : ℝ := distanceInMeters d M / 9.461e15
/-- units.py:95-110 -/
noncomputable def distanceInAu (d M : ℝ) : ℝ := distanceInMeters d M / 1.496e11
/-- units.py:113-128 -/
noncomputable def timeInSeconds (t M : ℝ) : ℝ := t * G / c ^ 3 * massInKg M
/-- units.py:131-141 -/
noncomputable def time2InSeconds2 (t M : ℝ) : ℝ := t * (G / c ^ 3) ^ 2 * massInKg M ^ 2
/-- units.py:144-159 -/
noncomputable def timeInDays (t M : ℝ) : ℝ := timeInSeconds t M / 86400
/-- units.py:162-177 -/
noncomputable def energyInJoules (E M : ℝ) : ℝ := E * c ^ 2 * massInKg M
/-- units.py:180-195 -/
noncomputable def energyInErgs (E M : ℝ) : ℝ := energyInJoules E M * 1e7
/-- units.py:198-213 -/
noncomputable def angularMomentumInMks (L M : ℝ) : ℝ := L * G / c * massInKg M ^ 2
/-- units.py:216-231 -/
noncomputable def angularMomentumInCgs (L M : ℝ) : ℝ := angularMomentumInMks L M * 1e7
/-- units.py:234-244 -/
noncomputable def carterConstantInMks (Q M : ℝ) : ℝ := Q * G ^ 2 / c ^ 2 * massInKg M ^ 4
/-- units.py:247-257 -/
noncomputable def carterConstantInCgs (Q M : ℝ) : ℝ := carterConstantInMks Q M * 1e14
/-- units.py:260-270 -/
noncomputable def frequencyInHz (f M : ℝ) : ℝ := f * c ^ 3 / G / massInKg M
/-- units.py:273-288 -/
noncomputable def frequencyInMHz (f M : ℝ) : ℝ := frequencyInHz f M * 1e3

end KGP.Units
