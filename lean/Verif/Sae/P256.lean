import Verif.Sae.Check
import Mathlib.Tactic.NormNum.Prime

/-!
# The hypotheses of the SAE theorems hold for P-256

Generated by tools/curves.py.  The parameters are those of FIPS 186 / SEC 2
(wolfCrypt's `ecc_sets` entry that `sae_ctx_init`, sae_crypto.c:172-217, reads);
the primality certificates are Pocklington's.
-/

namespace Wolf.Sae

def cv256 : Curve :=
  ⟨115792089210356248762697446949407573530086143415290314195533631308867097853951,
   115792089210356248762697446949407573529996955224135760342422259061068512044369,
   115792089210356248762697446949407573530086143415290314195533631308867097853948,
   41058363725152142129326129780047268409114441015993725554835256314039467401291⟩

theorem pr256_0 : Nat.Prime 2 := by norm_num

theorem pr256_1 : Nat.Prime 3 := by norm_num

theorem pr256_2 : Nat.Prime 2411 := by norm_num

theorem pr256_3 : Nat.Prime 11 := by norm_num

theorem pr256_4 : Nat.Prime 23 := by norm_num

theorem pr256_5 : Nat.Prime 107 := by norm_num

theorem pr256_6 : Nat.Prime 204061199 := by
  have h0 : DvdPred 204061199 2 := dvdPred_prime (a := 11) (k := 102030599) pr256_0
    (by decide +kernel) (by decide +kernel) (by decide +kernel) (by decide +kernel) (by decide +kernel)
  have h1 : DvdPred 204061199 11 := dvdPred_prime (a := 3) (k := 18551018) pr256_3
    (by decide +kernel) (by decide +kernel) (by decide +kernel) (by decide +kernel) (by decide +kernel)
  have h2 : DvdPred 204061199 23 := dvdPred_prime (a := 2) (k := 8872226) pr256_4
    (by decide +kernel) (by decide +kernel) (by decide +kernel) (by decide +kernel) (by decide +kernel)
  have h3 : DvdPred 204061199 107 := dvdPred_prime (a := 2) (k := 1907114) pr256_5
    (by decide +kernel) (by decide +kernel) (by decide +kernel) (by decide +kernel) (by decide +kernel)
  have m1 : DvdPred 204061199 22 := by
    have := dvdPred_mul h0 h1 (by decide +kernel)
    exact this
  have m2 : DvdPred 204061199 506 := by
    have := dvdPred_mul m1 h2 (by decide +kernel)
    exact this
  have m3 : DvdPred 204061199 54142 := by
    have := dvdPred_mul m2 h3 (by decide +kernel)
    exact this
  exact pocklington (by decide +kernel) m3 (by decide +kernel)

theorem pr256_7 : Nat.Prime 34282281433 := by
  have h0 : DvdPred 34282281433 204061199 := dvdPred_prime (a := 2) (k := 168) pr256_6
    (by decide +kernel) (by decide +kernel) (by decide +kernel) (by decide +kernel) (by decide +kernel)
  exact pocklington (by decide +kernel) h0 (by decide +kernel)

theorem pr256_8 : Nat.Prime 5 := by norm_num

theorem pr256_9 : Nat.Prime 53 := by norm_num

theorem pr256_10 : Nat.Prime 173 := by norm_num

theorem pr256_11 : Nat.Prime 197 := by norm_num

theorem pr256_12 : Nat.Prime 66417393611 := by
  have h0 : DvdPred 66417393611 2 := dvdPred_prime (a := 2) (k := 33208696805) pr256_0
    (by decide +kernel) (by decide +kernel) (by decide +kernel) (by decide +kernel) (by decide +kernel)
  have h1 : DvdPred 66417393611 5 := dvdPred_prime (a := 3) (k := 13283478722) pr256_8
    (by decide +kernel) (by decide +kernel) (by decide +kernel) (by decide +kernel) (by decide +kernel)
  have h2 : DvdPred 66417393611 53 := dvdPred_prime (a := 2) (k := 1253158370) pr256_9
    (by decide +kernel) (by decide +kernel) (by decide +kernel) (by decide +kernel) (by decide +kernel)
  have h3 : DvdPred 66417393611 173 := dvdPred_prime (a := 2) (k := 383915570) pr256_10
    (by decide +kernel) (by decide +kernel) (by decide +kernel) (by decide +kernel) (by decide +kernel)
  have h4 : DvdPred 66417393611 197 := dvdPred_prime (a := 2) (k := 337144130) pr256_11
    (by decide +kernel) (by decide +kernel) (by decide +kernel) (by decide +kernel) (by decide +kernel)
  have m1 : DvdPred 66417393611 10 := by
    have := dvdPred_mul h0 h1 (by decide +kernel)
    exact this
  have m2 : DvdPred 66417393611 530 := by
    have := dvdPred_mul m1 h2 (by decide +kernel)
    exact this
  have m3 : DvdPred 66417393611 91690 := by
    have := dvdPred_mul m2 h3 (by decide +kernel)
    exact this
  have m4 : DvdPred 66417393611 18062930 := by
    have := dvdPred_mul m3 h4 (by decide +kernel)
    exact this
  exact pocklington (by decide +kernel) m4 (by decide +kernel)

theorem pr256_13 : Nat.Prime 11290956913871 := by
  have h0 : DvdPred 11290956913871 66417393611 := dvdPred_prime (a := 2) (k := 170) pr256_12
    (by decide +kernel) (by decide +kernel) (by decide +kernel) (by decide +kernel) (by decide +kernel)
  exact pocklington (by decide +kernel) h0 (by decide +kernel)

theorem pr256_14 : Nat.Prime 774023187263532362759620327192479577272145303 := by
  have h0 : DvdPred 774023187263532362759620327192479577272145303 2 := dvdPred_prime (a := 3) (k := 387011593631766181379810163596239788636072651) pr256_0
    (by decide +kernel) (by decide +kernel) (by decide +kernel) (by decide +kernel) (by decide +kernel)
  have h1 : DvdPred 774023187263532362759620327192479577272145303 3 := dvdPred_prime (a := 2) (k := 258007729087844120919873442397493192424048434) pr256_1
    (by decide +kernel) (by decide +kernel) (by decide +kernel) (by decide +kernel) (by decide +kernel)
  have h2 : DvdPred 774023187263532362759620327192479577272145303 2411 := dvdPred_prime (a := 2) (k := 321038236110963236316723487014715710191682) pr256_2
    (by decide +kernel) (by decide +kernel) (by decide +kernel) (by decide +kernel) (by decide +kernel)
  have h3 : DvdPred 774023187263532362759620327192479577272145303 34282281433 := dvdPred_prime (a := 2) (k := 22577936908202977552973533084188294) pr256_7
    (by decide +kernel) (by decide +kernel) (by decide +kernel) (by decide +kernel) (by decide +kernel)
  have h4 : DvdPred 774023187263532362759620327192479577272145303 11290956913871 := dvdPred_prime (a := 2) (k := 68552487904071337216976429044362) pr256_13
    (by decide +kernel) (by decide +kernel) (by decide +kernel) (by decide +kernel) (by decide +kernel)
  have m1 : DvdPred 774023187263532362759620327192479577272145303 6 := by
    have := dvdPred_mul h0 h1 (by decide +kernel)
    exact this
  have m2 : DvdPred 774023187263532362759620327192479577272145303 14466 := by
    have := dvdPred_mul m1 h2 (by decide +kernel)
    exact this
  have m3 : DvdPred 774023187263532362759620327192479577272145303 495927483209778 := by
    have := dvdPred_mul m2 h3 (by decide +kernel)
    exact this
  have m4 : DvdPred 774023187263532362759620327192479577272145303 5599495845326087176171030638 := by
    have := dvdPred_mul m3 h4 (by decide +kernel)
    exact this
  exact pocklington (by decide +kernel) m4 (by decide +kernel)

theorem pr256_15 : Nat.Prime 835945042244614951780389953367877943453916927241 := by
  have h0 : DvdPred 835945042244614951780389953367877943453916927241 774023187263532362759620327192479577272145303 := dvdPred_prime (a := 2) (k := 1080) pr256_14
    (by decide +kernel) (by decide +kernel) (by decide +kernel) (by decide +kernel) (by decide +kernel)
  exact pocklington (by decide +kernel) h0 (by decide +kernel)

theorem pr256_16 : Nat.Prime 115792089210356248762697446949407573530086143415290314195533631308867097853951 := by
  have h0 : DvdPred 115792089210356248762697446949407573530086143415290314195533631308867097853951 835945042244614951780389953367877943453916927241 := dvdPred_prime (a := 2) (k := 138516389665330497628477975950) pr256_15
    (by decide +kernel) (by decide +kernel) (by decide +kernel) (by decide +kernel) (by decide +kernel)
  exact pocklington (by decide +kernel) h0 (by decide +kernel)

theorem pr256_17 : Nat.Prime 71 := by norm_num

theorem pr256_18 : Nat.Prime 131 := by norm_num

theorem pr256_19 : Nat.Prime 373 := by norm_num

theorem pr256_20 : Nat.Prime 3407 := by norm_num

theorem pr256_21 : Nat.Prime 17449 := by norm_num

theorem pr256_22 : Nat.Prime 38189 := by norm_num

theorem pr256_23 : Nat.Prime 9350987 := by norm_num

theorem pr256_24 : Nat.Prime 187019741 := by
  have h0 : DvdPred 187019741 9350987 := dvdPred_prime (a := 2) (k := 20) pr256_23
    (by decide +kernel) (by decide +kernel) (by decide +kernel) (by decide +kernel) (by decide +kernel)
  exact pocklington (by decide +kernel) h0 (by decide +kernel)

theorem pr256_25 : Nat.Prime 7 := by norm_num

theorem pr256_26 : Nat.Prime 17 := by norm_num

theorem pr256_27 : Nat.Prime 29 := by norm_num

theorem pr256_28 : Nat.Prime 311245691 := by
  have h0 : DvdPred 311245691 2 := dvdPred_prime (a := 2) (k := 155622845) pr256_0
    (by decide +kernel) (by decide +kernel) (by decide +kernel) (by decide +kernel) (by decide +kernel)
  have h1 : DvdPred 311245691 5 := dvdPred_prime (a := 2) (k := 62249138) pr256_8
    (by decide +kernel) (by decide +kernel) (by decide +kernel) (by decide +kernel) (by decide +kernel)
  have h2 : DvdPred 311245691 7 := dvdPred_prime (a := 2) (k := 44463670) pr256_25
    (by decide +kernel) (by decide +kernel) (by decide +kernel) (by decide +kernel) (by decide +kernel)
  have h3 : DvdPred 311245691 17 := dvdPred_prime (a := 2) (k := 18308570) pr256_26
    (by decide +kernel) (by decide +kernel) (by decide +kernel) (by decide +kernel) (by decide +kernel)
  have h4 : DvdPred 311245691 29 := dvdPred_prime (a := 2) (k := 10732610) pr256_27
    (by decide +kernel) (by decide +kernel) (by decide +kernel) (by decide +kernel) (by decide +kernel)
  have m1 : DvdPred 311245691 10 := by
    have := dvdPred_mul h0 h1 (by decide +kernel)
    exact this
  have m2 : DvdPred 311245691 70 := by
    have := dvdPred_mul m1 h2 (by decide +kernel)
    exact this
  have m3 : DvdPred 311245691 1190 := by
    have := dvdPred_mul m2 h3 (by decide +kernel)
    exact this
  have m4 : DvdPred 311245691 34510 := by
    have := dvdPred_mul m3 h4 (by decide +kernel)
    exact this
  exact pocklington (by decide +kernel) m4 (by decide +kernel)

theorem pr256_29 : Nat.Prime 622491383 := by
  have h0 : DvdPred 622491383 311245691 := dvdPred_prime (a := 2) (k := 2) pr256_28
    (by decide +kernel) (by decide +kernel) (by decide +kernel) (by decide +kernel) (by decide +kernel)
  exact pocklington (by decide +kernel) h0 (by decide +kernel)

theorem pr256_30 : Nat.Prime 3969899 := by norm_num

theorem pr256_31 : Nat.Prime 1002328039319 := by
  have h0 : DvdPred 1002328039319 3969899 := dvdPred_prime (a := 2) (k := 252482) pr256_30
    (by decide +kernel) (by decide +kernel) (by decide +kernel) (by decide +kernel) (by decide +kernel)
  exact pocklington (by decide +kernel) h0 (by decide +kernel)

theorem pr256_32 : Nat.Prime 115792089210356248762697446949407573529996955224135760342422259061068512044369 := by
  have h0 : DvdPred 115792089210356248762697446949407573529996955224135760342422259061068512044369 2 := dvdPred_prime (a := 7) (k := 57896044605178124381348723474703786764998477612067880171211129530534256022184) pr256_0
    (by decide +kernel) (by decide +kernel) (by decide +kernel) (by decide +kernel) (by decide +kernel)
  have h1 : DvdPred 115792089210356248762697446949407573529996955224135760342422259061068512044369 3 := dvdPred_prime (a := 2) (k := 38597363070118749587565815649802524509998985074711920114140753020356170681456) pr256_1
    (by decide +kernel) (by decide +kernel) (by decide +kernel) (by decide +kernel) (by decide +kernel)
  have h2 : DvdPred 115792089210356248762697446949407573529996955224135760342422259061068512044369 71 := dvdPred_prime (a := 2) (k := 1630874495920510545953485168301515120140802186255433244259468437479838197808) pr256_17
    (by decide +kernel) (by decide +kernel) (by decide +kernel) (by decide +kernel) (by decide +kernel)
  have h3 : DvdPred 115792089210356248762697446949407573529996955224135760342422259061068512044369 131 := dvdPred_prime (a := 2) (k := 883909077941650753913720969079447126183182864306379849942154649321133679728) pr256_18
    (by decide +kernel) (by decide +kernel) (by decide +kernel) (by decide +kernel) (by decide +kernel)
  have h4 : DvdPred 115792089210356248762697446949407573529996955224135760342422259061068512044369 373 := dvdPred_prime (a := 2) (k := 310434555523743294269966345708867489356560201673286220757164233407690380816) pr256_19
    (by decide +kernel) (by decide +kernel) (by decide +kernel) (by decide +kernel) (by decide +kernel)
  have h5 : DvdPred 115792089210356248762697446949407573529996955224135760342422259061068512044369 3407 := dvdPred_prime (a := 2) (k := 33986524570107498903051789536075014244202217559182788477376653672165691824) pr256_20
    (by decide +kernel) (by decide +kernel) (by decide +kernel) (by decide +kernel) (by decide +kernel)
  have h6 : DvdPred 115792089210356248762697446949407573529996955224135760342422259061068512044369 17449 := dvdPred_prime (a := 2) (k := 6636030099739598186870161439016996591781589502214210576103058001092814032) pr256_21
    (by decide +kernel) (by decide +kernel) (by decide +kernel) (by decide +kernel) (by decide +kernel)
  have h7 : DvdPred 115792089210356248762697446949407573529996955224135760342422259061068512044369 38189 := dvdPred_prime (a := 2) (k := 3032079635768316760394287542208687672628164005973860544722885099402144912) pr256_22
    (by decide +kernel) (by decide +kernel) (by decide +kernel) (by decide +kernel) (by decide +kernel)
  have h8 : DvdPred 115792089210356248762697446949407573529996955224135760342422259061068512044369 187019741 := dvdPred_prime (a := 2) (k := 619143672166438562026975788344223904844339161094954999121842752744848) pr256_24
    (by decide +kernel) (by decide +kernel) (by decide +kernel) (by decide +kernel) (by decide +kernel)
  have h9 : DvdPred 115792089210356248762697446949407573529996955224135760342422259061068512044369 622491383 := dvdPred_prime (a := 2) (k := 186013963201087795238922121672819322432286512830549110335913290965296) pr256_29
    (by decide +kernel) (by decide +kernel) (by decide +kernel) (by decide +kernel) (by decide +kernel)
  have h10 : DvdPred 115792089210356248762697446949407573529996955224135760342422259061068512044369 1002328039319 := dvdPred_prime (a := 2) (k := 115523146782392231311324540489179156958562150085032625197564538672) pr256_31
    (by decide +kernel) (by decide +kernel) (by decide +kernel) (by decide +kernel) (by decide +kernel)
  have m1 : DvdPred 115792089210356248762697446949407573529996955224135760342422259061068512044369 6 := by
    have := dvdPred_mul h0 h1 (by decide +kernel)
    exact this
  have m2 : DvdPred 115792089210356248762697446949407573529996955224135760342422259061068512044369 426 := by
    have := dvdPred_mul m1 h2 (by decide +kernel)
    exact this
  have m3 : DvdPred 115792089210356248762697446949407573529996955224135760342422259061068512044369 55806 := by
    have := dvdPred_mul m2 h3 (by decide +kernel)
    exact this
  have m4 : DvdPred 115792089210356248762697446949407573529996955224135760342422259061068512044369 20815638 := by
    have := dvdPred_mul m3 h4 (by decide +kernel)
    exact this
  have m5 : DvdPred 115792089210356248762697446949407573529996955224135760342422259061068512044369 70918878666 := by
    have := dvdPred_mul m4 h5 (by decide +kernel)
    exact this
  have m6 : DvdPred 115792089210356248762697446949407573529996955224135760342422259061068512044369 1237463513843034 := by
    have := dvdPred_mul m5 h6 (by decide +kernel)
    exact this
  have m7 : DvdPred 115792089210356248762697446949407573529996955224135760342422259061068512044369 47257494130151625426 := by
    have := dvdPred_mul m6 h7 (by decide +kernel)
    exact this
  have m8 : DvdPred 115792089210356248762697446949407573529996955224135760342422259061068512044369 8838084312529977277899534666 := by
    have := dvdPred_mul m7 h8 (by decide +kernel)
    exact this
  have m9 : DvdPred 115792089210356248762697446949407573529996955224135760342422259061068512044369 5501631326777389784678256669294783078 := by
    have := dvdPred_mul m8 h9 (by decide +kernel)
    exact this
  have m10 : DvdPred 115792089210356248762697446949407573529996955224135760342422259061068512044369 5514439340824769685657176594585275313007159843882 := by
    have := dvdPred_mul m9 h10 (by decide +kernel)
    exact this
  exact pocklington (by decide +kernel) m10 (by decide +kernel)

instance fact256 : Fact cv256.p.Prime := ⟨pr256_16⟩

theorem ok256 {g : Grp} (hg : saeGroup 19 = some g) :
    CurveOk g cv256
      48439561293906451759052585252797914202762949526041747995844080717082404635286
      36134250956749795798585127919587881956611106672985015071877198253568414405109
      115792089210356248762697446949407573530086143415290314195533631308867097853941
      74703601957397362287352587393959705516025038863550323175665808372750477554212
      6501495017824578668815466053538685894748441653268928328498100493089435342678 3 := by
  have e : (⟨19, sha256, 32, 32, 48⟩ : Grp) = g := by
    have h : saeGroup 19 = some ⟨19, sha256, 32, 32, 48⟩ := rfl
    rw [h] at hg
    exact Option.some.inj hg
  subst e
  exact ⟨pr256_16, pr256_32, by decide +kernel, by decide +kernel, by decide +kernel, by decide +kernel, by decide +kernel, by decide +kernel, by decide +kernel, by decide +kernel, by decide +kernel, by decide +kernel, by decide +kernel, by decide +kernel, by decide +kernel, by decide +kernel, by decide +kernel, by decide +kernel, by decide +kernel, by decide +kernel, by decide +kernel, by decide +kernel, by decide +kernel, by decide +kernel, by decide +kernel, by decide +kernel, by decide +kernel, by decide +kernel, by decide +kernel, by decide +kernel, by decide +kernel, by decide +kernel, by decide +kernel, by decide +kernel⟩

end Wolf.Sae
