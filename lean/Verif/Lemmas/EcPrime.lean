import Verif.Lemmas.Pocklington
import Verif.Model.EcField
import Mathlib.Tactic.NormNum.Prime

/-!
# The modulus of BLS12-377 is prime
-/

namespace Verif.EcCurve

open Verif.PrimeCheck Verif.EcChunks

/-- The 63-bit prime factor of `P - 1`. -/
def Q63 : Nat := 6633514200929891813

theorem prime_71924131 : Nat.Prime 71924131 := prime_of_noDiv _ 14 (by norm_num) (by decide +kernel) (by norm_num)
theorem prime_47521 : Nat.Prime 47521 := prime_of_noDiv _ 8 (by norm_num) (by decide +kernel) (by norm_num)

theorem gcd_of_check (n k a E E' : Nat) (hE : E < 2 ^ k) (hE' : E' = E)
    (h : Nat.gcd (powMod n k a E + (n - 1)) n = 1) :
    Nat.gcd (a ^ E' % n + (n - 1)) n = 1 := by
  rw [hE']
  rwa [powMod_eq _ _ _ _ hE] at h

theorem pow_of_check (n k a E b : Nat) (hE : E < 2 ^ k) (h : powMod n k a E = b) : a ^ E % n = b := by
  rwa [powMod_eq _ _ _ _ hE] at h

theorem Q63_prime : Nat.Prime Q63 := by
  have h1 : 2 ^ (Q63 - 1) % Q63 = 1 := pow_of_check _ 64 _ _ _ (by decide +kernel) (by decide +kernel)
  refine prime_of_factored Q63 (71924131 * 47521) 1940812 (by decide +kernel) (by decide +kernel)
    ?_ (by norm_num) (by norm_num)
  intro r hr hrn
  have a0 := dvd_pred_of_witness Q63 2 71924131 0 92229327052 r (by decide +kernel) hr hrn prime_71924131
    (by decide +kernel) h1 (gcd_of_check _ 64 _ ((Q63 - 1) / 71924131) _ (by decide +kernel) (by decide +kernel)
      (by decide +kernel))
  have a1 := dvd_pred_of_witness Q63 2 47521 0 139591216534372 r (by decide +kernel) hr hrn prime_47521
    (by decide +kernel) h1 (gcd_of_check _ 64 _ ((Q63 - 1) / 47521) _ (by decide +kernel) (by decide +kernel)
      (by decide +kernel))
  exact Nat.Coprime.mul_dvd_of_dvd_of_dvd (by norm_num) (by simpa using a0) (by simpa using a1)

/-- The factored part of `P - 1`. -/
def FACT : Nat := 3524654579752940305589650092018935831143120896

theorem P_prime : Nat.Prime P := by
  have h1 : 15 ^ (P - 1) % P = 1 := pow_of_check _ 400 _ _ _ (by decide +kernel) (by decide +kernel)
  have hP : 1 < P := by decide +kernel
  refine prime_of_factored P FACT 73387170334035996766247648424745786170238574695861388454532790956181 hP
    (by decide +kernel) ?_ (by decide +kernel) (by decide +kernel)
  intro r hr hrn
  have b0 := dvd_pred_of_witness P 15 2 45 3675842578061421676390135839012792950148785745837396071634149488243117337281387659330802195819009059 r hP hr hrn (by norm_num)
    (by decide +kernel) h1 (gcd_of_check _ 400 _ ((P - 1) / 2) _ (by decide +kernel) (by decide +kernel)
      (by decide +kernel))
  have b1 := dvd_pred_of_witness P 15 3 0 86221475337656364670217577898297844512131170918304886846628087555573489449446940924989629379857786708146773819392 r hP hr hrn (by norm_num)
    (by decide +kernel) h1 (gcd_of_check _ 400 _ ((P - 1) / 3) _ (by decide +kernel) (by decide +kernel)
      (by decide +kernel))
  have b2 := dvd_pred_of_witness P 15 7 0 36952060858995584858664676242127647648056216107844951505697751809531495478334403253566984019939051446348617351168 r hP hr hrn (by norm_num)
    (by decide +kernel) h1 (gcd_of_check _ 400 _ ((P - 1) / 7) _ (by decide +kernel) (by decide +kernel)
      (by decide +kernel))
  have b3 := dvd_pred_of_witness P 15 13 0 19897263539459161077742517976530271810491808673454973887683404820516959103718524828843760626121027701880024727552 r hP hr hrn (by norm_num)
    (by decide +kernel) h1 (gcd_of_check _ 400 _ ((P - 1) / 13) _ (by decide +kernel) (by decide +kernel)
      (by decide +kernel))
  have b4 := dvd_pred_of_witness P 15 53 0 4880460868169228188880240258394217613894217221790842651695929484277744685817751373112620530935346417442270216192 r hP hr hrn (by norm_num)
    (by decide +kernel) h1 (gcd_of_check _ 400 _ ((P - 1) / 53) _ (by decide +kernel) (by decide +kernel)
      (by decide +kernel))
  have b5 := dvd_pred_of_witness P 15 409 0 632431359444912210294994458911720130895827659547468607676978637326944910387141375977919041906047335267580248064 r hP hr hrn (by norm_num)
    (by decide +kernel) h1 (gcd_of_check _ 400 _ ((P - 1) / 409) _ (by decide +kernel) (by decide +kernel)
      (by decide +kernel))
  have b6 := dvd_pred_of_witness P 15 499 0 518365583192322833688682833055898864802391809128085492063896317969379696088859364278494765810768256762405453824 r hP hr hrn (by norm_num)
    (by decide +kernel) h1 (gcd_of_check _ 400 _ ((P - 1) / 499) _ (by decide +kernel) (by decide +kernel)
      (by decide +kernel))
  have b7 := dvd_pred_of_witness P 15 2557 0 101159337509960537352621327217400677957134733185340109714463927519249303225788354624547863957596151788987219968 r hP hr hrn (by norm_num)
    (by decide +kernel) h1 (gcd_of_check _ 400 _ ((P - 1) / 2557) _ (by decide +kernel) (by decide +kernel)
      (by decide +kernel))
  have b8 := dvd_pred_of_witness P 15 Q63 0 38993573870198286288306222754263105272353218195296283182129257193167519589638171992010996580352 r hP hr hrn Q63_prime
    (by decide +kernel) h1 (gcd_of_check _ 400 _ ((P - 1) / Q63) _ (by decide +kernel) (by decide +kernel)
      (by decide +kernel))
  simp only [Nat.zero_add, pow_one] at b1 b2 b3 b4 b5 b6 b7 b8
  have c1 := Nat.Coprime.mul_dvd_of_dvd_of_dvd (by decide +kernel) b0 b1
  have c2 := Nat.Coprime.mul_dvd_of_dvd_of_dvd (by decide +kernel) c1 b2
  have c3 := Nat.Coprime.mul_dvd_of_dvd_of_dvd (by decide +kernel) c2 b3
  have c4 := Nat.Coprime.mul_dvd_of_dvd_of_dvd (by decide +kernel) c3 b4
  have c5 := Nat.Coprime.mul_dvd_of_dvd_of_dvd (by decide +kernel) c4 b5
  have c6 := Nat.Coprime.mul_dvd_of_dvd_of_dvd (by decide +kernel) c5 b6
  have c7 := Nat.Coprime.mul_dvd_of_dvd_of_dvd (by decide +kernel) c6 b7
  have c8 := Nat.Coprime.mul_dvd_of_dvd_of_dvd (by decide +kernel) c7 b8
  have e : FACT = 2 ^ (45 + 1) * 3 * 7 * 13 * 53 * 409 * 499 * 2557 * Q63 := by decide +kernel
  rw [e]
  exact c8

instance : Fact P.Prime := ⟨P_prime⟩

end Verif.EcCurve
