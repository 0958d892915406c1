{"115792089210356248762697446949407573530086143415290314195533631308867097853951": [[835945042244614951780389953367877943453916927241, 2, 138516389665330497628477975950]], "835945042244614951780389953367877943453916927241": [[774023187263532362759620327192479577272145303, 2, 1080]], "774023187263532362759620327192479577272145303": [[2, 3, 387011593631766181379810163596239788636072651], [3, 2, 258007729087844120919873442397493192424048434], [2411, 2, 321038236110963236316723487014715710191682], [34282281433, 2, 22577936908202977552973533084188294], [11290956913871, 2, 68552487904071337216976429044362]], "34282281433": [[204061199, 2, 168]], "204061199": [[2, 11, 102030599], [11, 3, 18551018], [23, 2, 8872226], [107, 2, 1907114]], "11290956913871": [[66417393611, 2, 170]], "66417393611": [[2, 2, 33208696805], [5, 3, 13283478722], [53, 2, 1253158370], [173, 2, 383915570], [197, 2, 337144130]], "115792089210356248762697446949407573529996955224135760342422259061068512044369": [[2, 7, 57896044605178124381348723474703786764998477612067880171211129530534256022184], [3, 2, 38597363070118749587565815649802524509998985074711920114140753020356170681456], [71, 2, 1630874495920510545953485168301515120140802186255433244259468437479838197808], [131, 2, 883909077941650753913720969079447126183182864306379849942154649321133679728], [373, 2, 310434555523743294269966345708867489356560201673286220757164233407690380816], [3407, 2, 33986524570107498903051789536075014244202217559182788477376653672165691824], [17449, 2, 6636030099739598186870161439016996591781589502214210576103058001092814032], [38189, 2, 3032079635768316760394287542208687672628164005973860544722885099402144912], [187019741, 2, 619143672166438562026975788344223904844339161094954999121842752744848], [622491383, 2, 186013963201087795238922121672819322432286512830549110335913290965296], [1002328039319, 2, 115523146782392231311324540489179156958562150085032625197564538672]], "187019741": [[9350987, 2, 20]], "9350987": [[2, 2, 4675493], [17, 2, 550058], [229, 2, 40834]], "622491383": [[311245691, 2, 2]], "311245691": [[2, 2, 155622845], [5, 2, 62249138], [7, 2, 44463670], [17, 2, 18308570], [29, 2, 10732610]], "1002328039319": [[3969899, 2, 252482]], "3969899": [[104471, 2, 38]], "39402006196394479212279040100143613805079739270465446667948293404245721771496870329047266088258938001861606973112319": [[19173790298027098165721053155794528970226934547887232785722672956982046098136719667167519737147526097, 2, 2054993070433694]], "19173790298027098165721053155794528970226934547887232785722672956982046098136719667167519737147526097": [[2, 3, 9586895149013549082860526577897264485113467273943616392861336478491023049068359833583759868573763048], [11, 2, 1743071845275190742338277559617684451838812231626112071429333905180186008921519969742501794286138736], [8389, 2, 2285587113842781996152229485730662649925728280830520060284023478004773643835584654567590861502864], [38557, 2, 497284288145527353417564985756011333097153164091792224128502553543637889310286580054659847424528], [312289, 2, 61397584602810531801379661646085929924611288094960862488664900002824454585773817416455654016464], [1357291859799823621, 2, 14126505039862900815249904539637777567653936149729524826939381384214131451527832976], [529709925838459440593, 2, 36196773673209108854078416512380613964711027274668755761194285045868717602353872]], "1357291859799823621": [[53448597593, 2, 25394340]], "53448597593": [[513928823, 2, 104]], "513928823": [[2, 5, 256964411], [11, 3, 46720802], [59, 2, 8710658], [599, 2, 857978]], "529709925838459440593": [[2, 3, 264854962919229720296], [7, 2, 75672846548351348656], [181, 2, 2926574175903090832], [105957871, 2, 4999250370352]], "105957871": [[2, 3, 52978935], [3, 2, 35319290], [5, 2, 21191574], [19, 2, 5576730], [211, 2, 502170]], "39402006196394479212279040100143613805079739270465446667946905279627659399113263569398956308152294913554433653942643": [[3055465788140352002733946906144561090641249606160407884365391979704929268480326390471, 2, 12895580879789762060783039592702]], "3055465788140352002733946906144561090641249606160407884365391979704929268480326390471": [[1059392654943455286185473617842338478315215895509773412096307, 2, 2884167427329800039538210]], "1059392654943455286185473617842338478315215895509773412096307": [[2, 2, 529696327471727643092736808921169239157607947754886706048153], [251, 2, 4220687868300618670061647879849954096873370101632563394806], [248431, 2, 4264333577304987244689566188770074903354315264639974126], [8463023, 2, 125178988045223944940888571121966521692687813268352622], [55942463741690639, 2, 18937182671022621403976774588414660839566254]], "8463023": [[37447, 2, 226]], "55942463741690639": [[37344768852931, 2, 1498]], "37344768852931": [[9863677, 2, 3786090]], "9863677": [[881, 2, 11196], [311, 2, 31716]], "6864797660130609714981900799081393217269435300143305409394463459185543183397655394245057746333217197532963996371363321113864768612440380340372808892707005449": [[3615194794881930010216942559103847593050265703173292383701371712350878926821661243755933835426896058418509759880171943, 2, 1898873518475180724503002533770555108536]], "3615194794881930010216942559103847593050265703173292383701371712350878926821661243755933835426896058418509759880171943": [[3636410625392624440351547907325502812950802686368714273274221490761556277859337865760708490235892541081304511, 2, 994165722]]}