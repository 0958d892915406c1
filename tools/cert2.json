{"6864797660130609714981900799081393217269435300143305409394463459185543183397656052122559640661454554977296311391480858037121987999716643812574028291115057151": [[2, 3, 3432398830065304857490950399540696608634717650071652704697231729592771591698828026061279820330727277488648155695740429018560993999858321906287014145557528575], [3, 3, 2288265886710203238327300266360464405756478433381101803131487819728514394465885350707519880220484851659098770463826952679040662666572214604191342763705019050], [5, 3, 1372959532026121942996380159816278643453887060028661081878892691837108636679531210424511928132290910995459262278296171607424397599943328762514805658223011430], [11, 3, 624072514557328155907445527189217565206312300013027764490405769016867562127059641102050876423768595907026937399225532548829271636337876710234002571919550650], [17, 3, 403811627066506453822464752887140777486437370596665024082027262305031951964568003066032920038909091469252724199498874002183646352924508459563178134771473950], [31, 3, 221445085810664829515545187067141716686110816133655013206273014812436876883795356520082569053595308225074074561015511549584580258055375606857226719068227650], [41, 3, 167434089271478285731265873148326663835839885369348912424255206321598614229211123222501454650279379389690153936377581903344438731700405946648147031490611150], [53, 3, 129524484153407730471356618850592324854140288681949158667820065267651758177314265134387917748329331225986722856443035057304188452824842336086302420587076550], [131, 3, 52403035573516104694518326710544986391369735115597751216751629459431627354180580550553890386728660725017529094591456931581083877860432395515832277031412650], [157, 3, 43724825860704520477591724834913332594072836306645257384678111205003459766864051287404838475550665955269403257270578713612241961781634673965439670644044950], [521, 2, 13176195125010767207258926677699411165584328791062006543943307983081656781953274572212206603956726593046633994993245408900426080613659585052925198255499150], [1613, 3, 4255919194129330263472970117223430388883716863077064729940770898441130305888193460708344476541509333525912158333218138894681951642725755618458790013090550], [2731, 3, 2513657143951156980952728231080700555572843390751851120246965748511733131965454431388707301597017413027204800948912800452992306114872443724853177697222650], [8191, 3, 838090301566427751798547283491807253970142265919094788108224082430172528799616170445923530785185515196837542594491619831171039921830868491340987460763650], [42641, 3, 160990541031650517459297408575816543169002492909249440899473827048745179132704581321323600306312107009153075945486289206095588471183054895817969285221150], [51481, 3, 133346237643608510226722495660173524548268978849348408333063915992027023239596279251035520690380034478298718194896774694297352188180428581662633365535150], [61681, 3, 111295174529119335208279710106538370280466193805925737413376298360687135153412818406357867749573686467101640884413042234028663413364190655348876125405150], [409891, 3, 16747861407375643073358285005236497550005819352323679732891094118157127586108638765238952893968041637843466461550707036839359702944725899843065664508650], [858001, 3, 8000920348729907908011646605401850600721252422949746456466208616523224545656305822630229615887923854374640951923693396671008527961758370692544680357150], [5746001, 3, 1194708747897991962580915109322360580387896782500265038135994661188806473127598838239422450615907403249198235675817121862165006236461957422662131157150], [7623851, 3, 900437018001874605757890703672119669871490838441531111953061970805245693206445935541311030430874705575606909341680583479021558527274030383407811654650], [34110701, 3, 201250559469024389589117526464243382663681854563566588953843647457891386735137927893142965331068820748576709443511021894188629779250700353902842052150], [308761441, 3, 22233338586247269505980511339436951316953580677657562199920110682426641425726653646892908627996248258788558741670987531234905682409082434009543401150]], "34110701": [[1381, 3, 24700], [19, 3, 1795300]], "308761441": [[49481, 3, 6240]]}