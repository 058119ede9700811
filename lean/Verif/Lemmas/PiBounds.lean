import Mathlib.Analysis.Real.Pi.Bounds

/-!
# Bounds of pi with 34 digits
-/

namespace Nsimd.Sleef

set_option maxRecDepth 10000 in
theorem pi_gt_d34 : 3.1415926535897932384626433832795028 < Real.pi := by
  pi_lower_bound [
    2558667859608253988048475048218113384609607264726351158181932925023648586953 / 2 ^ 250,
    3343060664783652664231306700260686485911202647061389888488286761536486130107 / 2 ^ 250,
    3548974272221782728920742778558123635340167861975957487179738677366927684698 / 2 ^ 250,
    3601078708701285898596162141923704698533870672745378315029748481220907883804 / 2 ^ 250,
    3614144143585476925954162876190018877224401055347879506820327735803568427818 / 2 ^ 250,
    3617412963278451976257555819289910102841060869452708845603762322668460644416 / 2 ^ 250,
    3618230322061094197399306497944414988852519369945384650896453255236480580885 / 2 ^ 250,
    3618434671373727489853059297506912354064747355978073289682862677607773605276 / 2 ^ 250,
    3618485759302958489759775426077172279827967035791219364385341165821906435785 / 2 ^ 250,
    3618498531322833467674277465969531975158674152883909892585226117306186770210 / 2 ^ 250,
    3618501724330150166799622232928724743959519232576856603345363356060353423070 / 2 ^ 250,
    3618502522582126088791700366691102910728961854792275513379698575206840468240 / 2 ^ 250,
    3618502722145129240991099427696371799348528218351554465105478707946735235607 / 2 ^ 250,
    3618502772035880602272296478361385907186086043432849325246183679896887693845 / 2 ^ 250,
    3618502784508568478419555119255698935141643522012646218918937029547891721734 / 2 ^ 250,
    3618502787626740449695554743319932534347708034325991238435507079351238698497 / 2 ^ 250,
    3618502788406283442654503709618241293431103986052752679394863872880866300932 / 2 ^ 250,
    3618502788601169190902987767461118652538323705520671220296339976207197065871 / 2 ^ 250,
    3618502788649890627965655457938617057928046809236191579689869928249083724744 / 2 ^ 250,
    3618502788662070987231356547809040511892369269599834607084021041661255750102 / 2 ^ 250,
    3618502788665116077047783955729836931187881932139489446398131605556364293364 / 2 ^ 250,
    3618502788665877349501890941175860445788847668195780570712775570289133708903 / 2 ^ 250,
    3618502788666067667615417695878980350050771302977686896226321810606554241732 / 2 ^ 250,
    3618502788666115247143799385076111202716991946527660847265440269510200488762 / 2 ^ 250,
    3618502788666127142025894807407978345671093490801474604585723818809980703655 / 2 ^ 250,
    3618502788666130115746418662992981658271340528174665469887655613027018057567 / 2 ^ 250,
    3618502788666130859176549626889359769350259890761120094228947538142593150923 / 2 ^ 250,
    3618502788666131045034082367863462252303043331611003101110454950387648136606 / 2 ^ 250,
    3618502788666131091498465553106988370240180041836187125443799523664818486683 / 2 ^ 250,
    3618502788666131103114561349417869930799398022518277850724636871267614746816 / 2 ^ 250,
    3618502788666131106018585298495590322881385880384162704176864888463689195295 / 2 ^ 250,
    3618502788666131106744591285765020421023269305019094053332269542390975900213 / 2 ^ 250,
    3618502788666131106926092782582377945566326814938355649108675191507530068669 / 2 ^ 250,
    3618502788666131106971468156786717326702565358278204095458257083475291981179 / 2 ^ 250,
    3618502788666131106982812000337802171986654629479418272508495216515528491669 / 2 ^ 250,
    3618502788666131106985647961225573383307678799490112570862482418060914825560 / 2 ^ 250,
    3618502788666131106986356951447516186137934957755935567581693447746849182928 / 2 ^ 250,
    3618502788666131106986534199003001886845499004557588155644665844500053177256 / 2 ^ 250,
    3618502788666131106986578510891873312022390016710201105090607046146594453792 / 2 ^ 250,
    3618502788666131106986589588864091168316612769776616830103979727961869911433 / 2 ^ 250,
    3618502788666131106986592358357145632390168458044987166835565859753416286393 / 2 ^ 250,
    3618502788666131106986593050730409248408557380112190151360852577784910849572 / 2 ^ 250,
    3618502788666131106986593223823725152413154610628997797513573643860509988457 / 2 ^ 250,
    3618502788666131106986593267097054128414303918258200140303091372039892616809 / 2 ^ 250,
    3618502788666131106986593277915386372414591245165500752953679395438518451624 / 2 ^ 250,
    3618502788666131106986593280619969433414663076892325907800901938247786171435 / 2 ^ 250,
    3618502788666131106986593281296115198664681034824032196617993545010078805207 / 2 ^ 250,
    3618502788666131106986593281465151639977185524306958768828846819891900445139 / 2 ^ 250,
    3618502788666131106986593281507410750305311646677690411881971411936808885215 / 2 ^ 250,
    3618502788666131106986593281517975527887343177270373322645278264530814309615 / 2 ^ 250,
    3618502788666131106986593281520616722282851059918544050336106584215739310364 / 2 ^ 250,
    3618502788666131106986593281521277020881728030580586732258813764545497038341 / 2 ^ 250,
    3618502788666131106986593281521442095531447273246097402739490565903469375198 / 2 ^ 250,
    3618502788666131106986593281521483364193877083912475070359659766635183265966 / 2 ^ 250,
    3618502788666131106986593281521493681359484536579069487264702066842625539067 / 2 ^ 250,
    3618502788666131106986593281521496260650886399745718091490962641896018219868 / 2 ^ 250,
    3618502788666131106986593281521496905473736865537380242547527785659462147101 / 2 ^ 250,
    3618502788666131106986593281521497066679449481985295780311669071600329113724 / 2 ^ 250,
    3618502788666131106986593281521497106980877636097274664752704393085546229431 / 2 ^ 250,
    3618502788666131106986593281521497117056234674625269385862963223456850531736 / 2 ^ 250]

set_option maxRecDepth 10000 in
theorem pi_lt_d34 : Real.pi < 3.1415926535897932384626433832795029 := by
  pi_upper_bound [
    2558667859608253988048475048218113384609607264726351158181932925023648586952 / 2 ^ 250,
    3343060664783652664231306700260686485911202647061389888488286761536486130106 / 2 ^ 250,
    3548974272221782728920742778558123635340167861975957487179738677366927684696 / 2 ^ 250,
    3601078708701285898596162141923704698533870672745378315029748481220907883802 / 2 ^ 250,
    3614144143585476925954162876190018877224401055347879506820327735803568427816 / 2 ^ 250,
    3617412963278451976257555819289910102841060869452708845603762322668460644414 / 2 ^ 250,
    3618230322061094197399306497944414988852519369945384650896453255236480580883 / 2 ^ 250,
    3618434671373727489853059297506912354064747355978073289682862677607773605274 / 2 ^ 250,
    3618485759302958489759775426077172279827967035791219364385341165821906435784 / 2 ^ 250,
    3618498531322833467674277465969531975158674152883909892585226117306186770209 / 2 ^ 250,
    3618501724330150166799622232928724743959519232576856603345363356060353423069 / 2 ^ 250,
    3618502522582126088791700366691102910728961854792275513379698575206840468239 / 2 ^ 250,
    3618502722145129240991099427696371799348528218351554465105478707946735235606 / 2 ^ 250,
    3618502772035880602272296478361385907186086043432849325246183679896887693844 / 2 ^ 250,
    3618502784508568478419555119255698935141643522012646218918937029547891721733 / 2 ^ 250,
    3618502787626740449695554743319932534347708034325991238435507079351238698495 / 2 ^ 250,
    3618502788406283442654503709618241293431103986052752679394863872880866300930 / 2 ^ 250,
    3618502788601169190902987767461118652538323705520671220296339976207197065870 / 2 ^ 250,
    3618502788649890627965655457938617057928046809236191579689869928249083724742 / 2 ^ 250,
    3618502788662070987231356547809040511892369269599834607084021041661255750101 / 2 ^ 250,
    3618502788665116077047783955729836931187881932139489446398131605556364293362 / 2 ^ 250,
    3618502788665877349501890941175860445788847668195780570712775570289133708902 / 2 ^ 250,
    3618502788666067667615417695878980350050771302977686896226321810606554241731 / 2 ^ 250,
    3618502788666115247143799385076111202716991946527660847265440269510200488761 / 2 ^ 250,
    3618502788666127142025894807407978345671093490801474604585723818809980703654 / 2 ^ 250,
    3618502788666130115746418662992981658271340528174665469887655613027018057565 / 2 ^ 250,
    3618502788666130859176549626889359769350259890761120094228947538142593150922 / 2 ^ 250,
    3618502788666131045034082367863462252303043331611003101110454950387648136605 / 2 ^ 250,
    3618502788666131091498465553106988370240180041836187125443799523664818486682 / 2 ^ 250,
    3618502788666131103114561349417869930799398022518277850724636871267614746814 / 2 ^ 250,
    3618502788666131106018585298495590322881385880384162704176864888463689195294 / 2 ^ 250,
    3618502788666131106744591285765020421023269305019094053332269542390975900211 / 2 ^ 250,
    3618502788666131106926092782582377945566326814938355649108675191507530068667 / 2 ^ 250,
    3618502788666131106971468156786717326702565358278204095458257083475291981177 / 2 ^ 250,
    3618502788666131106982812000337802171986654629479418272508495216515528491668 / 2 ^ 250,
    3618502788666131106985647961225573383307678799490112570862482418060914825559 / 2 ^ 250,
    3618502788666131106986356951447516186137934957755935567581693447746849182927 / 2 ^ 250,
    3618502788666131106986534199003001886845499004557588155644665844500053177255 / 2 ^ 250,
    3618502788666131106986578510891873312022390016710201105090607046146594453791 / 2 ^ 250,
    3618502788666131106986589588864091168316612769776616830103979727961869911432 / 2 ^ 250,
    3618502788666131106986592358357145632390168458044987166835565859753416286391 / 2 ^ 250,
    3618502788666131106986593050730409248408557380112190151360852577784910849570 / 2 ^ 250,
    3618502788666131106986593223823725152413154610628997797513573643860509988455 / 2 ^ 250,
    3618502788666131106986593267097054128414303918258200140303091372039892616807 / 2 ^ 250,
    3618502788666131106986593277915386372414591245165500752953679395438518451622 / 2 ^ 250,
    3618502788666131106986593280619969433414663076892325907800901938247786171434 / 2 ^ 250,
    3618502788666131106986593281296115198664681034824032196617993545010078805206 / 2 ^ 250,
    3618502788666131106986593281465151639977185524306958768828846819891900445138 / 2 ^ 250,
    3618502788666131106986593281507410750305311646677690411881971411936808885214 / 2 ^ 250,
    3618502788666131106986593281517975527887343177270373322645278264530814309614 / 2 ^ 250,
    3618502788666131106986593281520616722282851059918544050336106584215739310362 / 2 ^ 250,
    3618502788666131106986593281521277020881728030580586732258813764545497038340 / 2 ^ 250,
    3618502788666131106986593281521442095531447273246097402739490565903469375196 / 2 ^ 250,
    3618502788666131106986593281521483364193877083912475070359659766635183265964 / 2 ^ 250,
    3618502788666131106986593281521493681359484536579069487264702066842625539066 / 2 ^ 250,
    3618502788666131106986593281521496260650886399745718091490962641896018219867 / 2 ^ 250,
    3618502788666131106986593281521496905473736865537380242547527785659462147100 / 2 ^ 250,
    3618502788666131106986593281521497066679449481985295780311669071600329113723 / 2 ^ 250,
    3618502788666131106986593281521497106980877636097274664752704393085546229430 / 2 ^ 250,
    3618502788666131106986593281521497117056234674625269385862963223456850531734 / 2 ^ 250]

end Nsimd.Sleef
