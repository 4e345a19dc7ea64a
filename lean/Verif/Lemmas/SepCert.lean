import Verif.Lemmas.SepCertDefs
import Verif.Lemmas.SepCertTwelve
import Verif.Lemmas.SepCertPrograde
import Verif.Lemmas.SepCertM1
import Verif.Lemmas.SepCertM2
import Verif.Lemmas.SepCertNtUpper
import Verif.Lemmas.SepCertNtLower
import Verif.Lemmas.SepCertPolarOne

/-!
# Polynomial certificates for the separatrix brackets

Collects the certificate modules.
-/
