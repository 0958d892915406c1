import Verif.Sae.Check
import Mathlib.Tactic.NormNum.Prime

/-!
# The hypotheses of the SAE theorems hold for P-384

Generated by tools/curves.py.  The parameters are those of FIPS 186 / SEC 2
(wolfCrypt's `ecc_sets` entry that `sae_ctx_init`, sae_crypto.c:172-217, reads);
the primality certificates are Pocklington's.
-/

namespace Wolf.Sae

def cv384 : Curve :=
  ⟨39402006196394479212279040100143613805079739270465446667948293404245721771496870329047266088258938001861606973112319,
   39402006196394479212279040100143613805079739270465446667946905279627659399113263569398956308152294913554433653942643,
   39402006196394479212279040100143613805079739270465446667948293404245721771496870329047266088258938001861606973112316,
   27580193559959705877849011840389048093056905856361568521428707301988689241309860865136260764883745107765439761230575⟩

theorem pr384_0 : Nat.Prime 2 := by norm_num

theorem pr384_1 : Nat.Prime 11 := by norm_num

theorem pr384_2 : Nat.Prime 8389 := by norm_num

theorem pr384_3 : Nat.Prime 38557 := by norm_num

theorem pr384_4 : Nat.Prime 312289 := by norm_num

theorem pr384_5 : Nat.Prime 59 := by norm_num

theorem pr384_6 : Nat.Prime 599 := by norm_num

theorem pr384_7 : Nat.Prime 513928823 := by
  have h0 : DvdPred 513928823 2 := dvdPred_prime (a := 5) (k := 256964411) pr384_0
    (by decide +kernel) (by decide +kernel) (by decide +kernel) (by decide +kernel) (by decide +kernel)
  have h1 : DvdPred 513928823 11 := dvdPred_prime (a := 3) (k := 46720802) pr384_1
    (by decide +kernel) (by decide +kernel) (by decide +kernel) (by decide +kernel) (by decide +kernel)
  have h2 : DvdPred 513928823 59 := dvdPred_prime (a := 2) (k := 8710658) pr384_5
    (by decide +kernel) (by decide +kernel) (by decide +kernel) (by decide +kernel) (by decide +kernel)
  have h3 : DvdPred 513928823 599 := dvdPred_prime (a := 2) (k := 857978) pr384_6
    (by decide +kernel) (by decide +kernel) (by decide +kernel) (by decide +kernel) (by decide +kernel)
  have m1 : DvdPred 513928823 22 := by
    have := dvdPred_mul h0 h1 (by decide +kernel)
    exact this
  have m2 : DvdPred 513928823 1298 := by
    have := dvdPred_mul m1 h2 (by decide +kernel)
    exact this
  have m3 : DvdPred 513928823 777502 := by
    have := dvdPred_mul m2 h3 (by decide +kernel)
    exact this
  exact pocklington (by decide +kernel) m3 (by decide +kernel)

theorem pr384_8 : Nat.Prime 53448597593 := by
  have h0 : DvdPred 53448597593 513928823 := dvdPred_prime (a := 2) (k := 104) pr384_7
    (by decide +kernel) (by decide +kernel) (by decide +kernel) (by decide +kernel) (by decide +kernel)
  exact pocklington (by decide +kernel) h0 (by decide +kernel)

theorem pr384_9 : Nat.Prime 1357291859799823621 := by
  have h0 : DvdPred 1357291859799823621 53448597593 := dvdPred_prime (a := 2) (k := 25394340) pr384_8
    (by decide +kernel) (by decide +kernel) (by decide +kernel) (by decide +kernel) (by decide +kernel)
  exact pocklington (by decide +kernel) h0 (by decide +kernel)

theorem pr384_10 : Nat.Prime 7 := by norm_num

theorem pr384_11 : Nat.Prime 181 := by norm_num

theorem pr384_12 : Nat.Prime 3 := by norm_num

theorem pr384_13 : Nat.Prime 5 := by norm_num

theorem pr384_14 : Nat.Prime 19 := by norm_num

theorem pr384_15 : Nat.Prime 211 := by norm_num

theorem pr384_16 : Nat.Prime 105957871 := by
  have h0 : DvdPred 105957871 2 := dvdPred_prime (a := 3) (k := 52978935) pr384_0
    (by decide +kernel) (by decide +kernel) (by decide +kernel) (by decide +kernel) (by decide +kernel)
  have h1 : DvdPred 105957871 3 := dvdPred_prime (a := 2) (k := 35319290) pr384_12
    (by decide +kernel) (by decide +kernel) (by decide +kernel) (by decide +kernel) (by decide +kernel)
  have h2 : DvdPred 105957871 5 := dvdPred_prime (a := 2) (k := 21191574) pr384_13
    (by decide +kernel) (by decide +kernel) (by decide +kernel) (by decide +kernel) (by decide +kernel)
  have h3 : DvdPred 105957871 19 := dvdPred_prime (a := 2) (k := 5576730) pr384_14
    (by decide +kernel) (by decide +kernel) (by decide +kernel) (by decide +kernel) (by decide +kernel)
  have h4 : DvdPred 105957871 211 := dvdPred_prime (a := 2) (k := 502170) pr384_15
    (by decide +kernel) (by decide +kernel) (by decide +kernel) (by decide +kernel) (by decide +kernel)
  have m1 : DvdPred 105957871 6 := by
    have := dvdPred_mul h0 h1 (by decide +kernel)
    exact this
  have m2 : DvdPred 105957871 30 := by
    have := dvdPred_mul m1 h2 (by decide +kernel)
    exact this
  have m3 : DvdPred 105957871 570 := by
    have := dvdPred_mul m2 h3 (by decide +kernel)
    exact this
  have m4 : DvdPred 105957871 120270 := by
    have := dvdPred_mul m3 h4 (by decide +kernel)
    exact this
  exact pocklington (by decide +kernel) m4 (by decide +kernel)

theorem pr384_17 : Nat.Prime 529709925838459440593 := by
  have h0 : DvdPred 529709925838459440593 2 := dvdPred_prime (a := 3) (k := 264854962919229720296) pr384_0
    (by decide +kernel) (by decide +kernel) (by decide +kernel) (by decide +kernel) (by decide +kernel)
  have h1 : DvdPred 529709925838459440593 7 := dvdPred_prime (a := 2) (k := 75672846548351348656) pr384_10
    (by decide +kernel) (by decide +kernel) (by decide +kernel) (by decide +kernel) (by decide +kernel)
  have h2 : DvdPred 529709925838459440593 181 := dvdPred_prime (a := 2) (k := 2926574175903090832) pr384_11
    (by decide +kernel) (by decide +kernel) (by decide +kernel) (by decide +kernel) (by decide +kernel)
  have h3 : DvdPred 529709925838459440593 105957871 := dvdPred_prime (a := 2) (k := 4999250370352) pr384_16
    (by decide +kernel) (by decide +kernel) (by decide +kernel) (by decide +kernel) (by decide +kernel)
  have m1 : DvdPred 529709925838459440593 14 := by
    have := dvdPred_mul h0 h1 (by decide +kernel)
    exact this
  have m2 : DvdPred 529709925838459440593 2534 := by
    have := dvdPred_mul m1 h2 (by decide +kernel)
    exact this
  have m3 : DvdPred 529709925838459440593 268497245114 := by
    have := dvdPred_mul m2 h3 (by decide +kernel)
    exact this
  exact pocklington (by decide +kernel) m3 (by decide +kernel)

theorem pr384_18 : Nat.Prime 19173790298027098165721053155794528970226934547887232785722672956982046098136719667167519737147526097 := by
  have h0 : DvdPred 19173790298027098165721053155794528970226934547887232785722672956982046098136719667167519737147526097 2 := dvdPred_prime (a := 3) (k := 9586895149013549082860526577897264485113467273943616392861336478491023049068359833583759868573763048) pr384_0
    (by decide +kernel) (by decide +kernel) (by decide +kernel) (by decide +kernel) (by decide +kernel)
  have h1 : DvdPred 19173790298027098165721053155794528970226934547887232785722672956982046098136719667167519737147526097 11 := dvdPred_prime (a := 2) (k := 1743071845275190742338277559617684451838812231626112071429333905180186008921519969742501794286138736) pr384_1
    (by decide +kernel) (by decide +kernel) (by decide +kernel) (by decide +kernel) (by decide +kernel)
  have h2 : DvdPred 19173790298027098165721053155794528970226934547887232785722672956982046098136719667167519737147526097 8389 := dvdPred_prime (a := 2) (k := 2285587113842781996152229485730662649925728280830520060284023478004773643835584654567590861502864) pr384_2
    (by decide +kernel) (by decide +kernel) (by decide +kernel) (by decide +kernel) (by decide +kernel)
  have h3 : DvdPred 19173790298027098165721053155794528970226934547887232785722672956982046098136719667167519737147526097 38557 := dvdPred_prime (a := 2) (k := 497284288145527353417564985756011333097153164091792224128502553543637889310286580054659847424528) pr384_3
    (by decide +kernel) (by decide +kernel) (by decide +kernel) (by decide +kernel) (by decide +kernel)
  have h4 : DvdPred 19173790298027098165721053155794528970226934547887232785722672956982046098136719667167519737147526097 312289 := dvdPred_prime (a := 2) (k := 61397584602810531801379661646085929924611288094960862488664900002824454585773817416455654016464) pr384_4
    (by decide +kernel) (by decide +kernel) (by decide +kernel) (by decide +kernel) (by decide +kernel)
  have h5 : DvdPred 19173790298027098165721053155794528970226934547887232785722672956982046098136719667167519737147526097 1357291859799823621 := dvdPred_prime (a := 2) (k := 14126505039862900815249904539637777567653936149729524826939381384214131451527832976) pr384_9
    (by decide +kernel) (by decide +kernel) (by decide +kernel) (by decide +kernel) (by decide +kernel)
  have h6 : DvdPred 19173790298027098165721053155794528970226934547887232785722672956982046098136719667167519737147526097 529709925838459440593 := dvdPred_prime (a := 2) (k := 36196773673209108854078416512380613964711027274668755761194285045868717602353872) pr384_17
    (by decide +kernel) (by decide +kernel) (by decide +kernel) (by decide +kernel) (by decide +kernel)
  have m1 : DvdPred 19173790298027098165721053155794528970226934547887232785722672956982046098136719667167519737147526097 22 := by
    have := dvdPred_mul h0 h1 (by decide +kernel)
    exact this
  have m2 : DvdPred 19173790298027098165721053155794528970226934547887232785722672956982046098136719667167519737147526097 184558 := by
    have := dvdPred_mul m1 h2 (by decide +kernel)
    exact this
  have m3 : DvdPred 19173790298027098165721053155794528970226934547887232785722672956982046098136719667167519737147526097 7116002806 := by
    have := dvdPred_mul m2 h3 (by decide +kernel)
    exact this
  have m4 : DvdPred 19173790298027098165721053155794528970226934547887232785722672956982046098136719667167519737147526097 2222249400282934 := by
    have := dvdPred_mul m3 h4 (by decide +kernel)
    exact this
  have m5 : DvdPred 19173790298027098165721053155794528970226934547887232785722672956982046098136719667167519737147526097 3016241021449066176933680696384014 := by
    have := dvdPred_mul m4 h5 (by decide +kernel)
    exact this
  have m6 : DvdPred 19173790298027098165721053155794528970226934547887232785722672956982046098136719667167519737147526097 1597732807782703995441419672609574903889573056347880302 := by
    have := dvdPred_mul m5 h6 (by decide +kernel)
    exact this
  exact pocklington (by decide +kernel) m6 (by decide +kernel)

theorem pr384_19 : Nat.Prime 39402006196394479212279040100143613805079739270465446667948293404245721771496870329047266088258938001861606973112319 := by
  have h0 : DvdPred 39402006196394479212279040100143613805079739270465446667948293404245721771496870329047266088258938001861606973112319 19173790298027098165721053155794528970226934547887232785722672956982046098136719667167519737147526097 := dvdPred_prime (a := 2) (k := 2054993070433694) pr384_18
    (by decide +kernel) (by decide +kernel) (by decide +kernel) (by decide +kernel) (by decide +kernel)
  exact pocklington (by decide +kernel) h0 (by decide +kernel)

theorem pr384_20 : Nat.Prime 251 := by norm_num

theorem pr384_21 : Nat.Prime 248431 := by norm_num

theorem pr384_22 : Nat.Prime 8463023 := by norm_num

theorem pr384_23 : Nat.Prime 9863677 := by norm_num

theorem pr384_24 : Nat.Prime 37344768852931 := by
  have h0 : DvdPred 37344768852931 9863677 := dvdPred_prime (a := 2) (k := 3786090) pr384_23
    (by decide +kernel) (by decide +kernel) (by decide +kernel) (by decide +kernel) (by decide +kernel)
  exact pocklington (by decide +kernel) h0 (by decide +kernel)

theorem pr384_25 : Nat.Prime 55942463741690639 := by
  have h0 : DvdPred 55942463741690639 37344768852931 := dvdPred_prime (a := 2) (k := 1498) pr384_24
    (by decide +kernel) (by decide +kernel) (by decide +kernel) (by decide +kernel) (by decide +kernel)
  exact pocklington (by decide +kernel) h0 (by decide +kernel)

theorem pr384_26 : Nat.Prime 1059392654943455286185473617842338478315215895509773412096307 := by
  have h0 : DvdPred 1059392654943455286185473617842338478315215895509773412096307 2 := dvdPred_prime (a := 2) (k := 529696327471727643092736808921169239157607947754886706048153) pr384_0
    (by decide +kernel) (by decide +kernel) (by decide +kernel) (by decide +kernel) (by decide +kernel)
  have h1 : DvdPred 1059392654943455286185473617842338478315215895509773412096307 251 := dvdPred_prime (a := 2) (k := 4220687868300618670061647879849954096873370101632563394806) pr384_20
    (by decide +kernel) (by decide +kernel) (by decide +kernel) (by decide +kernel) (by decide +kernel)
  have h2 : DvdPred 1059392654943455286185473617842338478315215895509773412096307 248431 := dvdPred_prime (a := 2) (k := 4264333577304987244689566188770074903354315264639974126) pr384_21
    (by decide +kernel) (by decide +kernel) (by decide +kernel) (by decide +kernel) (by decide +kernel)
  have h3 : DvdPred 1059392654943455286185473617842338478315215895509773412096307 8463023 := dvdPred_prime (a := 2) (k := 125178988045223944940888571121966521692687813268352622) pr384_22
    (by decide +kernel) (by decide +kernel) (by decide +kernel) (by decide +kernel) (by decide +kernel)
  have h4 : DvdPred 1059392654943455286185473617842338478315215895509773412096307 55942463741690639 := dvdPred_prime (a := 2) (k := 18937182671022621403976774588414660839566254) pr384_25
    (by decide +kernel) (by decide +kernel) (by decide +kernel) (by decide +kernel) (by decide +kernel)
  have m1 : DvdPred 1059392654943455286185473617842338478315215895509773412096307 502 := by
    have := dvdPred_mul h0 h1 (by decide +kernel)
    exact this
  have m2 : DvdPred 1059392654943455286185473617842338478315215895509773412096307 124712362 := by
    have := dvdPred_mul m1 h2 (by decide +kernel)
    exact this
  have m3 : DvdPred 1059392654943455286185473617842338478315215895509773412096307 1055443587990326 := by
    have := dvdPred_mul m2 h3 (by decide +kernel)
    exact this
  have m4 : DvdPred 1059392654943455286185473617842338478315215895509773412096307 59044114652548685817935616758314 := by
    have := dvdPred_mul m3 h4 (by decide +kernel)
    exact this
  exact pocklington (by decide +kernel) m4 (by decide +kernel)

theorem pr384_27 : Nat.Prime 3055465788140352002733946906144561090641249606160407884365391979704929268480326390471 := by
  have h0 : DvdPred 3055465788140352002733946906144561090641249606160407884365391979704929268480326390471 1059392654943455286185473617842338478315215895509773412096307 := dvdPred_prime (a := 2) (k := 2884167427329800039538210) pr384_26
    (by decide +kernel) (by decide +kernel) (by decide +kernel) (by decide +kernel) (by decide +kernel)
  exact pocklington (by decide +kernel) h0 (by decide +kernel)

theorem pr384_28 : Nat.Prime 39402006196394479212279040100143613805079739270465446667946905279627659399113263569398956308152294913554433653942643 := by
  have h0 : DvdPred 39402006196394479212279040100143613805079739270465446667946905279627659399113263569398956308152294913554433653942643 3055465788140352002733946906144561090641249606160407884365391979704929268480326390471 := dvdPred_prime (a := 2) (k := 12895580879789762060783039592702) pr384_27
    (by decide +kernel) (by decide +kernel) (by decide +kernel) (by decide +kernel) (by decide +kernel)
  exact pocklington (by decide +kernel) h0 (by decide +kernel)

instance fact384 : Fact cv384.p.Prime := ⟨pr384_19⟩

theorem ok384 {g : Grp} (hg : saeGroup 20 = some g) :
    CurveOk g cv384
      26247035095799689268623156744566981891852923491109213387815615900925518854738050089022388053975719786650872476732087
      8325710961489029985546751289520108179287853048861315594709205902480503199884419224438643760392947333078086511627871
      39402006196394479212279040100143613805079739270465446667948293404245721771496870329047266088258938001861606973112307
      12805618381119416033692179248388022220803723273096707829690553743019211909104873180129338548214779531340086568485169
      37561047755030469683523571075854451141166426459879495640879726933488836242211037541742600528865780251189269636994147 19 := by
  have e : (⟨20, sha384, 48, 48, 72⟩ : Grp) = g := by
    have h : saeGroup 20 = some ⟨20, sha384, 48, 48, 72⟩ := rfl
    rw [h] at hg
    exact Option.some.inj hg
  subst e
  exact ⟨pr384_19, pr384_28, by decide +kernel, by decide +kernel, by decide +kernel, by decide +kernel, by decide +kernel, by decide +kernel, by decide +kernel, by decide +kernel, by decide +kernel, by decide +kernel, by decide +kernel, by decide +kernel, by decide +kernel, by decide +kernel, by decide +kernel, by decide +kernel, by decide +kernel, by decide +kernel, by decide +kernel, by decide +kernel, by decide +kernel, by decide +kernel, by decide +kernel, by decide +kernel, by decide +kernel, by decide +kernel, by decide +kernel, by decide +kernel, by decide +kernel, by decide +kernel, by decide +kernel, by decide +kernel⟩

end Wolf.Sae
