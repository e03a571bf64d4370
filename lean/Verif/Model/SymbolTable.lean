import Lean.Elab.Term
import Verif.Model.PyStr
/-! The table of latex_maps/_latex2unicode_map.py:6-2684, entry by entry, in its order; written by tools/symbols.py. The values are code points. -/
namespace L2J.Sym

/-- The characters of a text. -/
macro "c!" s:str : term => do
  let cs := (s.getString.toList.map fun c => Lean.Syntax.mkCharLit c).toArray
  `(([$cs,*] : List Char))

/-- _latex2unicode_map.py, entries 1 to 120. -/
def entries0 : List (Str × List Nat) := [
  (c!"{[}", [91]), (c!"{]}", [93]), (c!"\\qedhere", [9633]), (c!"\\qedsymbol", [9633]), (c!"\\copyright", [169]), (c!"\\@", []),
  (c!"\\checkmark", [10003]), (c!"\\dots", [46, 46, 46]), (c!"\\textless", [60]), (c!"\\textgreater", [62]), (c!"\\#", [35]), (c!"\\$", [36]),
  (c!"\\%", [37]), (c!"\\&", [38]), (c!"\\textbackslash", [92]), (c!"\\textasciicircum", [94]), (c!"\\_", [95]), (c!"\\{", [123]),
  (c!"\\}", [125]), (c!"\\textasciitilde", [126]), (c!"\\textexclamdown", [161]), (c!"\\textcent", [162]), (c!"\\textsterling", [163]), (c!"\\textcurrency", [164]),
  (c!"\\textyen", [165]), (c!"\\textbrokenbar", [166]), (c!"\\S", [167]), (c!"\\textsection", [167]), (c!"\\textasciidieresis", [168]), (c!"\\textcopyright", [169]),
  (c!"\\textordfeminine", [170]), (c!"\\guillemotleft", [171]), (c!"\\textlnot", [172]), (c!"\\-", [173]), (c!"\\textregistered", [174]), (c!"\\textasciimacron", [175]),
  (c!"\\textdegree", [176]), (c!"\\textpm", [177]), (c!"\\texttwosuperior", [178]), (c!"\\textthreesuperior", [179]), (c!"\\textasciiacute", [180]), (c!"\\textmu", [181]),
  (c!"\\textparagraph", [182]), (c!"\\textperiodcentered", [183]), (c!"\\textonesuperior", [185]), (c!"\\textordmasculine", [186]), (c!"\\guillemotright", [187]), (c!"\\textonequarter", [188]),
  (c!"\\textonehalf", [189]), (c!"\\textthreequarters", [190]), (c!"\\textquestiondown", [191]), (c!"\\`A", [192]), (c!"\\'A", [193]), (c!"\\^A", [194]),
  (c!"\\~A", [195]), (c!"\\\"A", [196]), (c!"\\r{A}", [197]), (c!"\\AE", [198]), (c!"\\c{C}", [199]), (c!"\\`E", [200]),
  (c!"\\'E", [201]), (c!"\\^E", [202]), (c!"\\\"E", [203]), (c!"\\`I", [204]), (c!"\\'I", [205]), (c!"\\^I", [206]),
  (c!"\\\"I", [207]), (c!"\\DH", [208]), (c!"\\~N", [209]), (c!"\\`O", [210]), (c!"\\'O", [211]), (c!"\\^O", [212]),
  (c!"\\~O", [213]), (c!"\\\"O", [214]), (c!"\\texttimes", [215]), (c!"\\O", [216]), (c!"\\`U", [217]), (c!"\\'U", [218]),
  (c!"\\^U", [219]), (c!"\\\"U", [220]), (c!"\\'Y", [221]), (c!"\\TH", [222]), (c!"\\ss", [223]), (c!"\\`a", [224]),
  (c!"\\'a", [225]), (c!"\\^a", [226]), (c!"\\~a", [227]), (c!"\\\"a", [228]), (c!"\\r{a}", [229]), (c!"\\ae", [230]),
  (c!"\\c{c}", [231]), (c!"\\`e", [232]), (c!"\\'e", [233]), (c!"\\^e", [234]), (c!"\\\"e", [235]), (c!"\\`i", [236]),
  (c!"\\'i", [237]), (c!"\\^i", [238]), (c!"\\\"i", [239]), (c!"\\dh", [240]), (c!"\\~n", [241]), (c!"\\`o", [242]),
  (c!"\\'o", [243]), (c!"\\^o", [244]), (c!"\\~o", [245]), (c!"\\\"o", [246]), (c!"\\textdiv", [247]), (c!"\\o", [248]),
  (c!"\\`u", [249]), (c!"\\'u", [250]), (c!"\\^u", [251]), (c!"\\\"u", [252]), (c!"\\'y", [253]), (c!"\\th", [254]),
  (c!"\\\"y", [255]), (c!"\\={A}", [256]), (c!"\\={a}", [257]), (c!"\\u{A}", [258]), (c!"\\u{a}", [259]), (c!"\\k{A}", [260])]

/-- _latex2unicode_map.py, entries 121 to 240. -/
def entries1 : List (Str × List Nat) := [
  (c!"\\k{a}", [261]), (c!"\\'C", [262]), (c!"\\'c", [263]), (c!"\\^{C}", [264]), (c!"\\^{c}", [265]), (c!"\\.{C}", [266]),
  (c!"\\.{c}", [267]), (c!"\\v{C}", [268]), (c!"\\v{c}", [269]), (c!"\\v{D}", [270]), (c!"\\v{d}", [271]), (c!"\\DJ", [272]),
  (c!"\\dj", [273]), (c!"\\={E}", [274]), (c!"\\={e}", [275]), (c!"\\u{E}", [276]), (c!"\\u{e}", [277]), (c!"\\.{E}", [278]),
  (c!"\\.{e}", [279]), (c!"\\k{E}", [280]), (c!"\\k{e}", [281]), (c!"\\v{E}", [282]), (c!"\\v{e}", [283]), (c!"\\^{G}", [284]),
  (c!"\\^{g}", [285]), (c!"\\u{G}", [286]), (c!"\\u{g}", [287]), (c!"\\.{G}", [288]), (c!"\\.{g}", [289]), (c!"\\c{G}", [290]),
  (c!"\\c{g}", [291]), (c!"\\^{H}", [292]), (c!"\\^{h}", [293]), (c!"\\={H}", [294]), (c!"\\={h}", [295]), (c!"\\~{I}", [296]),
  (c!"\\~{i}", [297]), (c!"\\={I}", [298]), (c!"\\={i}", [299]), (c!"\\u{I}", [300]), (c!"\\u{i}", [301]), (c!"\\k{I}", [302]),
  (c!"\\k{i}", [303]), (c!"\\.I", [304]), (c!"\\i", [305]), (c!"\\IJ", [306]), (c!"\\ij", [307]), (c!"\\^{J}", [308]),
  (c!"\\^{j}", [309]), (c!"\\c{K}", [310]), (c!"\\c{k}", [311]), (c!"\\textsc{k}", [312]), (c!"\\'L", [313]), (c!"\\'l", [314]),
  (c!"\\c{L}", [315]), (c!"\\c{l}", [316]), (c!"\\v{L}", [317]), (c!"\\v{l}", [318]), (c!"\\.{L}", [319]), (c!"\\.{l}", [320]),
  (c!"\\L", [321]), (c!"\\l", [322]), (c!"\\'N", [323]), (c!"\\'n", [324]), (c!"\\c{N}", [325]), (c!"\\c{n}", [326]),
  (c!"\\v{N}", [327]), (c!"\\v{n}", [328]), (c!"\\nument{149}", [329]), (c!"\\NG", [330]), (c!"\\ng", [331]), (c!"\\={O}", [332]),
  (c!"\\={o}", [333]), (c!"\\u{O}", [334]), (c!"\\u{o}", [335]), (c!"\\H{O}", [336]), (c!"\\H{o}", [337]), (c!"\\OE", [338]),
  (c!"\\oe", [339]), (c!"\\'R", [340]), (c!"\\'r", [341]), (c!"\\c{R}", [342]), (c!"\\c{r}", [343]), (c!"\\v{R}", [344]),
  (c!"\\v{r}", [345]), (c!"\\'S", [346]), (c!"\\'s", [347]), (c!"\\^{S}", [348]), (c!"\\^{s}", [349]), (c!"\\c{S}", [350]),
  (c!"\\c{s}", [351]), (c!"\\v{S}", [352]), (c!"\\v{s}", [353]), (c!"\\c{T}", [354]), (c!"\\c{t}", [355]), (c!"\\v{T}", [356]),
  (c!"\\v{t}", [357]), (c!"\\={T}", [358]), (c!"\\={t}", [359]), (c!"\\~{U}", [360]), (c!"\\~{u}", [361]), (c!"\\={U}", [362]),
  (c!"\\={u}", [363]), (c!"\\u{U}", [364]), (c!"\\u{u}", [365]), (c!"\\r{U}", [366]), (c!"\\r{u}", [367]), (c!"\\'{U}", [368]),
  (c!"\\'{u}", [369]), (c!"\\k{U}", [370]), (c!"\\k{u}", [371]), (c!"\\^{W}", [372]), (c!"\\^{w}", [373]), (c!"\\^{Y}", [374]),
  (c!"\\^{y}", [375]), (c!"\\\"Y", [376]), (c!"\\'Z", [377]), (c!"\\'z", [378]), (c!"\\.Z", [379]), (c!"\\.z", [380])]

/-- _latex2unicode_map.py, entries 241 to 360. -/
def entries2 : List (Str × List Nat) := [
  (c!"\\v{Z}", [381]), (c!"\\v{z}", [382]), (c!"\\textflorin", [402]), (c!"\\texthvlig", [405]), (c!"\\textnrleg", [414]), (c!"\\v{g}", [487]),
  (c!"\\'{g}", [501]), (c!"\\c{E}", [552]), (c!"\\c{e}", [553]), (c!"\\textschwa", [601]), (c!"\\varepsilon", [603]), (c!"\\textphi", [632]),
  (c!"\\textglotstop", [660]), (c!"\\textturnk", [670]), (c!"\\textsuperscript{w}", [695]), (c!"\\textasciicaron", [711]), (c!"\\textasciibreve", [728]), (c!"\\r{}", [730]),
  (c!"\\k{}", [731]), (c!"\\textacutedbl", [733]), (c!"\\dot{}", [775]), (c!"\\ddot{}", [776]), (c!"\\'{}A", [902]), (c!"\\'{}E", [904]),
  (c!"\\'{}H", [905]), (c!"\\'{}I", [906]), (c!"\\'{}O", [908]), (c!"\\'{}Y", [910]), (c!"\\'{}\\ensuremath{\\Omega}", [911]), (c!"\\acute{\\ddot{\\iota}}", [912]),
  (c!"\\Gamma", [915]), (c!"\\Delta", [916]), (c!"\\Theta", [920]), (c!"\\Lambda", [923]), (c!"\\Xi", [926]), (c!"\\Pi", [928]),
  (c!"\\Sigma", [931]), (c!"\\Upsilon", [933]), (c!"\\Phi", [934]), (c!"\\Psi", [936]), (c!"\\Omega", [937]), (c!"\\ddot{I}", [938]),
  (c!"\\ddot{Y}", [939]), (c!"\\acute\\alpha", [940]), (c!"\\acute\\epsilon", [941]), (c!"\\acute\\eta", [942]), (c!"\\acute\\iota", [943]), (c!"\\acute{\\ddot{\\upsilon}}", [944]),
  (c!"\\ddot\\iota", [970]), (c!"\\ddot{\\upsilon}", [971]), (c!"\\'{o}", [972]), (c!"\\acute\\upsilon", [973]), (c!"\\acute\\omega", [974]), (c!"\\alpha", [945]),
  (c!"\\beta", [946]), (c!"\\gamma", [947]), (c!"\\delta", [948]), (c!"\\zeta", [950]), (c!"\\eta", [951]), (c!"\\theta", [952]),
  (c!"\\iota", [953]), (c!"\\kappa", [954]), (c!"\\lambda", [955]), (c!"\\mu", [956]), (c!"\\nu", [957]), (c!"\\xi", [958]),
  (c!"\\pi", [960]), (c!"\\rho", [961]), (c!"\\varsigma", [962]), (c!"\\sigma", [963]), (c!"\\tau", [964]), (c!"\\upsilon", [965]),
  (c!"\\varphi", [966]), (c!"\\chi", [967]), (c!"\\psi", [968]), (c!"\\omega", [969]), (c!"\\vartheta", [977]), (c!"\\phi", [981]),
  (c!"\\varpi", [982]), (c!"\\varkappa", [1008]), (c!"\\varrho", [1009]), (c!"\\epsilon", [1013]), (c!"\\backepsilon", [1014]), (c!"\\`\\CYRE", [1024]),
  (c!"\\CYRYO", [1025]), (c!"\\CYRDJE", [1026]), (c!"\\`\\CYRG", [1027]), (c!"\\CYRIE", [1028]), (c!"\\CYRDZE", [1029]), (c!"\\CYRII", [1030]),
  (c!"\\CYRYI", [1031]), (c!"\\CYRJE", [1032]), (c!"\\CYRLJE", [1033]), (c!"\\CYRNJE", [1034]), (c!"\\CYRTSHE", [1035]), (c!"\\`\\CYRK", [1036]),
  (c!"\\`\\CYRI", [1037]), (c!"\\CYRUSHRT", [1038]), (c!"\\CYRDZHE", [1039]), (c!"\\CYRA", [1040]), (c!"\\CYRB", [1041]), (c!"\\CYRV", [1042]),
  (c!"\\CYRG", [1043]), (c!"\\CYRD", [1044]), (c!"\\CYRE", [1045]), (c!"\\CYRZH", [1046]), (c!"\\CYRZ", [1047]), (c!"\\CYRI", [1048]),
  (c!"\\CYRISHRT", [1049]), (c!"\\CYRK", [1050]), (c!"\\CYRL", [1051]), (c!"\\CYRM", [1052]), (c!"\\CYRN", [1053]), (c!"\\CYRO", [1054]),
  (c!"\\CYRP", [1055]), (c!"\\CYRR", [1056]), (c!"\\CYRS", [1057]), (c!"\\CYRT", [1058]), (c!"\\CYRU", [1059]), (c!"\\CYRF", [1060])]

/-- _latex2unicode_map.py, entries 361 to 480. -/
def entries3 : List (Str × List Nat) := [
  (c!"\\CYRH", [1061]), (c!"\\CYRC", [1062]), (c!"\\CYRCH", [1063]), (c!"\\CYRSH", [1064]), (c!"\\CYRSHCH", [1065]), (c!"\\CYRHRDSN", [1066]),
  (c!"\\CYRERY", [1067]), (c!"\\CYRSFTSN", [1068]), (c!"\\CYREREV", [1069]), (c!"\\CYRYU", [1070]), (c!"\\CYRYA", [1071]), (c!"\\cyra", [1072]),
  (c!"\\cyrb", [1073]), (c!"\\cyrv", [1074]), (c!"\\cyrg", [1075]), (c!"\\cyrd", [1076]), (c!"\\cyre", [1077]), (c!"\\cyrzh", [1078]),
  (c!"\\cyrz", [1079]), (c!"\\cyri", [1080]), (c!"\\cyrishrt", [1081]), (c!"\\cyrk", [1082]), (c!"\\cyrl", [1083]), (c!"\\cyrm", [1084]),
  (c!"\\cyrn", [1085]), (c!"\\cyro", [1086]), (c!"\\cyrp", [1087]), (c!"\\cyrr", [1088]), (c!"\\cyrs", [1089]), (c!"\\cyrt", [1090]),
  (c!"\\cyru", [1091]), (c!"\\cyrf", [1092]), (c!"\\cyrh", [1093]), (c!"\\cyrc", [1094]), (c!"\\cyrch", [1095]), (c!"\\cyrsh", [1096]),
  (c!"\\cyrshch", [1097]), (c!"\\cyrhrdsn", [1098]), (c!"\\cyrery", [1099]), (c!"\\cyrsftsn", [1100]), (c!"\\cyrerev", [1101]), (c!"\\cyryu", [1102]),
  (c!"\\cyrya", [1103]), (c!"\\`\\cyre", [1104]), (c!"\\cyryo", [1105]), (c!"\\cyrdje", [1106]), (c!"\\`\\cyrg", [1107]), (c!"\\cyrie", [1108]),
  (c!"\\cyrdze", [1109]), (c!"\\cyrii", [1110]), (c!"\\cyryi", [1111]), (c!"\\cyrje", [1112]), (c!"\\cyrlje", [1113]), (c!"\\cyrnje", [1114]),
  (c!"\\cyrtshe", [1115]), (c!"\\`\\cyrk", [1116]), (c!"\\`\\cyri", [1117]), (c!"\\cyrushrt", [1118]), (c!"\\cyrdzhe", [1119]), (c!"\\cyrchar\\CYROMEGA", [1120]),
  (c!"\\cyrchar\\cyromega", [1121]), (c!"\\CYRYAT", [1122]), (c!"\\cyryat", [1123]), (c!"\\cyrchar\\CYRIOTE", [1124]), (c!"\\cyrchar\\cyriote", [1125]), (c!"\\cyrchar\\CYRLYUS", [1126]),
  (c!"\\cyrchar\\cyrlyus", [1127]), (c!"\\cyrchar\\CYRIOTLYUS", [1128]), (c!"\\cyrchar\\cyriotlyus", [1129]), (c!"\\CYRBYUS", [1130]), (c!"\\cyrbyus", [1131]), (c!"\\cyrchar\\CYRIOTBYUS", [1132]),
  (c!"\\cyrchar\\cyriotbyus", [1133]), (c!"\\cyrchar\\CYRKSI", [1134]), (c!"\\cyrchar\\cyrksi", [1135]), (c!"\\cyrchar\\CYRPSI", [1136]), (c!"\\cyrchar\\cyrpsi", [1137]), (c!"\\CYRFITA", [1138]),
  (c!"\\cyrfita", [1139]), (c!"\\CYRIZH", [1140]), (c!"\\cyrizh", [1141]), (c!"\\C\\CYRIZH", [1142]), (c!"\\C\\cyrizh", [1143]), (c!"\\cyrchar\\CYRUK", [1144]),
  (c!"\\cyrchar\\cyruk", [1145]), (c!"\\cyrchar\\CYROMEGARND", [1146]), (c!"\\cyrchar\\cyromegarnd", [1147]), (c!"\\cyrchar\\CYROMEGATITLO", [1148]), (c!"\\cyrchar\\cyromegatitlo", [1149]), (c!"\\cyrchar\\CYROT", [1150]),
  (c!"\\cyrchar\\cyrot", [1151]), (c!"\\cyrchar\\CYRKOPPA", [1152]), (c!"\\cyrchar\\cyrkoppa", [1153]), (c!"\\cyrchar\\cyrthousands", [1154]), (c!"\\cyrchar\\cyrhundredthousands", [1160]), (c!"\\cyrchar\\cyrmillions", [1161]),
  (c!"\\CYRSEMISFTSN", [1164]), (c!"\\cyrsemisftsn", [1165]), (c!"\\CYRRTICK", [1166]), (c!"\\cyrrtick", [1167]), (c!"\\CYRGUP", [1168]), (c!"\\cyrgup", [1169]),
  (c!"\\CYRGHCRS", [1170]), (c!"\\cyrghcrs", [1171]), (c!"\\CYRGHK", [1172]), (c!"\\cyrghk", [1173]), (c!"\\CYRZHDSC", [1174]), (c!"\\cyrzhdsc", [1175]),
  (c!"\\CYRZDSC", [1176]), (c!"\\cyrzdsc", [1177]), (c!"\\CYRKDSC", [1178]), (c!"\\cyrkdsc", [1179]), (c!"\\CYRKVCRS", [1180]), (c!"\\cyrkvcrs", [1181]),
  (c!"\\CYRKHCRS", [1182]), (c!"\\cyrkhcrs", [1183]), (c!"\\CYRKBEAK", [1184]), (c!"\\cyrkbeak", [1185]), (c!"\\CYRNDSC", [1186]), (c!"\\cyrndsc", [1187])]

/-- _latex2unicode_map.py, entries 481 to 600. -/
def entries4 : List (Str × List Nat) := [
  (c!"\\CYRNG", [1188]), (c!"\\cyrng", [1189]), (c!"\\CYRPHK", [1190]), (c!"\\cyrphk", [1191]), (c!"\\CYRABHHA", [1192]), (c!"\\cyrabhha", [1193]),
  (c!"\\CYRSDSC", [1194]), (c!"\\cyrsdsc", [1195]), (c!"\\CYRTDSC", [1196]), (c!"\\cyrtdsc", [1197]), (c!"\\CYRY", [1198]), (c!"\\cyry", [1199]),
  (c!"\\CYRYHCRS", [1200]), (c!"\\cyryhcrs", [1201]), (c!"\\CYRHDSC", [1202]), (c!"\\cyrhdsc", [1203]), (c!"\\CYRTETSE", [1204]), (c!"\\cyrtetse", [1205]),
  (c!"\\CYRCHRDSC", [1206]), (c!"\\cyrchrdsc", [1207]), (c!"\\CYRCHVCRS", [1208]), (c!"\\cyrchvcrs", [1209]), (c!"\\CYRSHHA", [1210]), (c!"\\cyrshha", [1211]),
  (c!"\\CYRABHCH", [1212]), (c!"\\cyrabhch", [1213]), (c!"\\CYRABHCHDSC", [1214]), (c!"\\cyrabhchdsc", [1215]), (c!"\\CYRpalochka", [1216]), (c!"\\U\\CYRZH", [1217]),
  (c!"\\U\\cyrzh", [1218]), (c!"\\CYRKHK", [1219]), (c!"\\cyrkhk", [1220]), (c!"\\CYRLDSC", [1221]), (c!"\\cyrldsc", [1222]), (c!"\\CYRNHK", [1223]),
  (c!"\\cyrnhk", [1224]), (c!"\\CYRCHLDSC", [1227]), (c!"\\cyrchldsc", [1228]), (c!"\\CYRMDSC", [1229]), (c!"\\cyrmdsc", [1230]), (c!"\\U\\CYRA", [1232]),
  (c!"\\U\\cyra", [1233]), (c!"\\\"\\CYRA", [1234]), (c!"\\\"\\cyra", [1235]), (c!"\\CYRAE", [1236]), (c!"\\cyrae", [1237]), (c!"\\U\\CYRE", [1238]),
  (c!"\\U\\cyre", [1239]), (c!"\\CYRSCHWA", [1240]), (c!"\\cyrschwa", [1241]), (c!"\\\"\\CYRSCHWA", [1242]), (c!"\\\"\\cyrschwa", [1243]), (c!"\\\"\\CYRZH", [1244]),
  (c!"\\\"\\cyrzh", [1245]), (c!"\\\"\\CYRZ", [1246]), (c!"\\\"\\cyrz", [1247]), (c!"\\CYRABHDZE", [1248]), (c!"\\cyrabhdze", [1249]), (c!"\\=\\CYRI", [1250]),
  (c!"\\=\\cyri", [1251]), (c!"\\\"\\CYRI", [1252]), (c!"\\\"\\cyri", [1253]), (c!"\\\"\\CYRO", [1254]), (c!"\\\"\\cyro", [1255]), (c!"\\CYROTLD", [1256]),
  (c!"\\cyrotld", [1257]), (c!"\\\"\\CYREREV", [1260]), (c!"\\\"\\cyrerev", [1261]), (c!"\\=\\CYRU", [1262]), (c!"\\=\\cyru", [1263]), (c!"\\\"\\CYRU", [1264]),
  (c!"\\\"\\cyru", [1265]), (c!"\\H\\CYRU", [1266]), (c!"\\H\\cyru", [1267]), (c!"\\\"\\CYRCH", [1268]), (c!"\\\"\\cyrch", [1269]), (c!"\\CYRGDSC", [1270]),
  (c!"\\cyrgdsc", [1271]), (c!"\\\"\\CYRERY", [1272]), (c!"\\\"\\cyrery", [1273]), (c!"\\CYRGDSCHCRS", [1274]), (c!"\\cyrgdschcrs", [1275]), (c!"\\CYRHHK", [1276]),
  (c!"\\cyrhhk", [1277]), (c!"\\CYRHHCRS", [1278]), (c!"\\cyrhhcrs", [1279]), (c!"\\textbaht", [3647]), (c!"\\enskip", [8192]), (c!"\\quad", [8193]),
  (c!"\\hspace{0.33em}", [8196]), (c!"\\hspace{0.25em}", [8197]), (c!"\\hspace{0.167em}", [8198]), (c!"\\;", [8200]), (c!"\\,", [8201]), (c!"\\hspace{1pt}", [8202]),
  (c!"\\textcompwordmark", [8204]), (c!"\\nobreakdash-", [8209]), (c!"\\textendash", [8211]), (c!"\\textemdash", [8212]), (c!"\\Vert", [8214]), (c!"\\textquoteleft", [8216]),
  (c!"\\textquoteright", [8217]), (c!"\\quotesinglbase", [8218]), (c!"\\textquotedblleft", [8220]), (c!"\\textquotedblright", [8221]), (c!"\\quotedblbase", [8222]), (c!"\\textdagger", [8224]),
  (c!"\\textdaggerdbl", [8225]), (c!"\\textbullet", [8226]), (c!"\\textellipsis", [8230]), (c!"\\textperthousand", [8240]), (c!"\\textpertenthousand", [8241]), (c!"\\backprime", [8245]),
  (c!"\\guilsinglleft", [8249]), (c!"\\guilsinglright", [8250]), (c!"\\textreferencemark", [8251]), (c!"\\textinterrobang", [8253]), (c!"\\textfractionsolidus", [8260]), (c!"\\textasteriskcentered", [8270])]

/-- _latex2unicode_map.py, entries 601 to 720. -/
def entries5 : List (Str × List Nat) := [
  (c!"\\textdiscount", [8274]), (c!"\\hspace{0.22em}", [8287]), (c!"\\nolinebreak", [8288]), (c!"\\textcolonmonetary", [8353]), (c!"\\textlira", [8356]), (c!"\\textnaira", [8358]),
  (c!"\\textwon", [8361]), (c!"\\textdong", [8363]), (c!"\\texteuro", [8364]), (c!"\\textpeso", [8369]), (c!"\\mathbb{C}", [8450]), (c!"\\textcelsius", [8451]),
  (c!"\\mathscr{H}", [8459]), (c!"\\mathfrak{H}", [8460]), (c!"\\mathbb{H}", [8461]), (c!"\\hbar", [8463]), (c!"\\mathscr{I}", [8464]), (c!"\\mathfrak{I}", [8465]),
  (c!"\\mathscr{L}", [8466]), (c!"\\ell", [8467]), (c!"\\mathbb{N}", [8469]), (c!"\\textnumero", [8470]), (c!"\\textcircledP", [8471]), (c!"\\wp", [8472]),
  (c!"\\textrecipe", [8478]), (c!"\\mathbb{P}", [8473]), (c!"\\mathbb{Q}", [8474]), (c!"\\mathscr{R}", [8475]), (c!"\\mathfrak{R}", [8476]), (c!"\\mathbb{R}", [8477]),
  (c!"\\textservicemark", [8480]), (c!"\\texttrademark", [8482]), (c!"\\mathbb{Z}", [8484]), (c!"\\textohm", [8486]), (c!"\\textmho", [8487]), (c!"\\mathfrak{Z}", [8488]),
  (c!"\\mathscr{B}", [8492]), (c!"\\mathfrak{C}", [8493]), (c!"\\textestimated", [8494]), (c!"\\mathscr{E}", [8496]), (c!"\\mathscr{F}", [8497]), (c!"\\mathscr{M}", [8499]),
  (c!"\\aleph", [8501]), (c!"\\beth", [8502]), (c!"\\gimel", [8503]), (c!"\\daleth", [8504]), (c!"\\textfrac{1}{3}", [8531]), (c!"\\textfrac{2}{3}", [8532]),
  (c!"\\textfrac{1}{5}", [8533]), (c!"\\textfrac{2}{5}", [8534]), (c!"\\textfrac{3}{5}", [8535]), (c!"\\textfrac{4}{5}", [8536]), (c!"\\textfrac{1}{6}", [8537]), (c!"\\textfrac{5}{6}", [8538]),
  (c!"\\textfrac{1}{8}", [8539]), (c!"\\textfrac{3}{8}", [8540]), (c!"\\textfrac{5}{8}", [8541]), (c!"\\textfrac{7}{8}", [8542]), (c!"\\textleftarrow", [8592]), (c!"\\textuparrow", [8593]),
  (c!"\\textrightarrow", [8594]), (c!"\\textdownarrow", [8595]), (c!"\\leftrightarrow", [8596]), (c!"\\updownarrow", [8597]), (c!"\\nwarrow", [8598]), (c!"\\nearrow", [8599]),
  (c!"\\searrow", [8600]), (c!"\\swarrow", [8601]), (c!"\\nleftarrow", [8602]), (c!"\\nrightarrow", [8603]), (c!"\\arrowwaveleft", [8604]), (c!"\\arrowwaveright", [8605]),
  (c!"\\twoheadleftarrow", [8606]), (c!"\\twoheadrightarrow", [8608]), (c!"\\leftarrowtail", [8610]), (c!"\\rightarrowtail", [8611]), (c!"\\mapsto", [8614]), (c!"\\hookleftarrow", [8617]),
  (c!"\\hookrightarrow", [8618]), (c!"\\looparrowleft", [8619]), (c!"\\looparrowright", [8620]), (c!"\\leftrightsquigarrow", [8621]), (c!"\\nleftrightarrow", [8622]), (c!"\\Lsh", [8624]),
  (c!"\\Rsh", [8625]), (c!"\\curvearrowleft", [8630]), (c!"\\curvearrowright", [8631]), (c!"\\circlearrowleft", [8634]), (c!"\\circlearrowright", [8635]), (c!"\\leftharpoonup", [8636]),
  (c!"\\leftharpoondown", [8637]), (c!"\\upharpoonright", [8638]), (c!"\\upharpoonleft", [8639]), (c!"\\rightharpoonup", [8640]), (c!"\\rightharpoondown", [8641]), (c!"\\downharpoonright", [8642]),
  (c!"\\downharpoonleft", [8643]), (c!"\\rightleftarrows", [8644]), (c!"\\dblarrowupdown", [8645]), (c!"\\leftrightarrows", [8646]), (c!"\\leftleftarrows", [8647]), (c!"\\upuparrows", [8648]),
  (c!"\\rightrightarrows", [8649]), (c!"\\downdownarrows", [8650]), (c!"\\leftrightharpoons", [8651]), (c!"\\rightleftharpoons", [8652]), (c!"\\nLeftarrow", [8653]), (c!"\\nLeftrightarrow", [8654]),
  (c!"\\nRightarrow", [8655]), (c!"\\Leftarrow", [8656]), (c!"\\Uparrow", [8657]), (c!"\\Rightarrow", [8658]), (c!"\\Downarrow", [8659]), (c!"\\Leftrightarrow", [8660]),
  (c!"\\Updownarrow", [8661]), (c!"\\Lleftarrow", [8666]), (c!"\\Rrightarrow", [8667]), (c!"\\rightsquigarrow", [8669]), (c!"\\DownArrowUpArrow", [8693]), (c!"\\forall", [8704])]

/-- _latex2unicode_map.py, entries 721 to 840. -/
def entries6 : List (Str × List Nat) := [
  (c!"\\complement", [8705]), (c!"\\partial", [8706]), (c!"\\exists", [8707]), (c!"\\nexists", [8708]), (c!"\\varnothing", [8709]), (c!"\\nabla", [8711]),
  (c!"\\in", [8712]), (c!"\\notin", [8713]), (c!"\\ni", [8715]), (c!"\\not\\ni", [8716]), (c!"\\blacksquare", [8718]), (c!"\\qed", [8718]),
  (c!"\\prod", [8719]), (c!"\\coprod", [8720]), (c!"\\sum", [8721]), (c!"\\mp", [8723]), (c!"\\dotplus", [8724]), (c!"\\smallsetminus", [8726]),
  (c!"\\circ", [8728]), (c!"\\bullet", [8729]), (c!"\\sqrt{}", [8730]), (c!"\\sqrt[3]{}", [8731]), (c!"\\sqrt[4]{}", [8732]), (c!"\\propto", [8733]),
  (c!"\\infty", [8734]), (c!"\\rightangle", [8735]), (c!"\\angle", [8736]), (c!"\\measuredangle", [8737]), (c!"\\sphericalangle", [8738]), (c!"\\mid", [8739]),
  (c!"\\nmid", [8740]), (c!"\\parallel", [8741]), (c!"\\nparallel", [8742]), (c!"\\wedge", [8743]), (c!"\\vee", [8744]), (c!"\\cap", [8745]),
  (c!"\\cup", [8746]), (c!"\\int", [8747]), (c!"\\iint", [8748]), (c!"\\iiint", [8749]), (c!"\\oint", [8750]), (c!"\\surfintegral", [8751]),
  (c!"\\volintegral", [8752]), (c!"\\clwintegral", [8753]), (c!"\\therefore", [8756]), (c!"\\because", [8757]), (c!"\\mathbin{{:}\\!\\!{-}\\!\\!{:}}", [8762]), (c!"\\homothetic", [8763]),
  (c!"\\sim", [8764]), (c!"\\backsim", [8765]), (c!"\\lazysinv", [8766]), (c!"\\wr", [8768]), (c!"\\not\\sim", [8769]), (c!"\\simeq", [8771]),
  (c!"\\not\\simeq", [8772]), (c!"\\cong", [8773]), (c!"\\approxnotequal", [8774]), (c!"\\not\\cong", [8775]), (c!"\\approx", [8776]), (c!"\\not\\approx", [8777]),
  (c!"\\approxeq", [8778]), (c!"\\tildetrpl", [8779]), (c!"\\allequal", [8780]), (c!"\\asymp", [8781]), (c!"\\Bumpeq", [8782]), (c!"\\bumpeq", [8783]),
  (c!"\\doteq", [8784]), (c!"\\doteqdot", [8785]), (c!"\\fallingdotseq", [8786]), (c!"\\risingdotseq", [8787]), (c!"\\eqcirc", [8790]), (c!"\\circeq", [8791]),
  (c!"\\estimates", [8793]), (c!"\\starequal", [8795]), (c!"\\triangleq", [8796]), (c!"\\neq", [8800]), (c!"\\equiv", [8801]), (c!"\\not\\equiv", [8802]),
  (c!"\\leq", [8804]), (c!"\\geq", [8805]), (c!"\\leqq", [8806]), (c!"\\geqq", [8807]), (c!"\\lneqq", [8808]), (c!"\\gneqq", [8809]),
  (c!"\\ll", [8810]), (c!"\\gg", [8811]), (c!"\\between", [8812]), (c!"\\not\\kern-0.3em\\times", [8813]), (c!"\\nless", [8814]), (c!"\\ngtr", [8815]),
  (c!"\\nleq", [8816]), (c!"\\ngeq", [8817]), (c!"\\lesssim", [8818]), (c!"\\gtrsim", [8819]), (c!"\\not\\lesssim", [8820]), (c!"\\not\\gtrsim", [8821]),
  (c!"\\lessgtr", [8822]), (c!"\\gtrless", [8823]), (c!"\\notlessgreater", [8824]), (c!"\\notgreaterless", [8825]), (c!"\\prec", [8826]), (c!"\\succ", [8827]),
  (c!"\\preceq", [8828]), (c!"\\succeq", [8829]), (c!"\\precsim", [8830]), (c!"\\succsim", [8831]), (c!"\\nprec", [8832]), (c!"\\nsucc", [8833]),
  (c!"\\subset", [8834]), (c!"\\supset", [8835]), (c!"\\not\\subset", [8836]), (c!"\\not\\supset", [8837]), (c!"\\subseteq", [8838]), (c!"\\supseteq", [8839]),
  (c!"\\nsubseteq", [8840]), (c!"\\nsupseteq", [8841]), (c!"\\subsetneq", [8842]), (c!"\\supsetneq", [8843]), (c!"\\uplus", [8846]), (c!"\\sqsubset", [8847])]

/-- _latex2unicode_map.py, entries 841 to 960. -/
def entries7 : List (Str × List Nat) := [
  (c!"\\sqsupset", [8848]), (c!"\\sqsubseteq", [8849]), (c!"\\sqsupseteq", [8850]), (c!"\\sqcap", [8851]), (c!"\\sqcup", [8852]), (c!"\\oplus", [8853]),
  (c!"\\ominus", [8854]), (c!"\\otimes", [8855]), (c!"\\oslash", [8856]), (c!"\\odot", [8857]), (c!"\\circledcirc", [8858]), (c!"\\circledast", [8859]),
  (c!"\\circleddash", [8861]), (c!"\\boxplus", [8862]), (c!"\\boxminus", [8863]), (c!"\\boxtimes", [8864]), (c!"\\boxdot", [8865]), (c!"\\vdash", [8866]),
  (c!"\\dashv", [8867]), (c!"\\top", [8868]), (c!"\\perp", [8869]), (c!"\\truestate", [8871]), (c!"\\forcesextra", [8872]), (c!"\\Vdash", [8873]),
  (c!"\\Vvdash", [8874]), (c!"\\VDash", [8875]), (c!"\\nvdash", [8876]), (c!"\\nvDash", [8877]), (c!"\\nVdash", [8878]), (c!"\\nVDash", [8879]),
  (c!"\\vartriangleleft", [8882]), (c!"\\vartriangleright", [8883]), (c!"\\trianglelefteq", [8884]), (c!"\\trianglerighteq", [8885]), (c!"\\original", [8886]), (c!"\\image", [8887]),
  (c!"\\multimap", [8888]), (c!"\\hermitconjmatrix", [8889]), (c!"\\intercal", [8890]), (c!"\\veebar", [8891]), (c!"\\rightanglearc", [8894]), (c!"\\bigwedge", [8896]),
  (c!"\\bigvee", [8897]), (c!"\\bigcap", [8898]), (c!"\\bigcup", [8899]), (c!"\\diamond", [8900]), (c!"\\cdot", [8901]), (c!"\\star", [8902]),
  (c!"\\divideontimes", [8903]), (c!"\\bowtie", [8904]), (c!"\\ltimes", [8905]), (c!"\\rtimes", [8906]), (c!"\\leftthreetimes", [8907]), (c!"\\rightthreetimes", [8908]),
  (c!"\\backsimeq", [8909]), (c!"\\curlyvee", [8910]), (c!"\\curlywedge", [8911]), (c!"\\Subset", [8912]), (c!"\\Supset", [8913]), (c!"\\Cap", [8914]),
  (c!"\\Cup", [8915]), (c!"\\pitchfork", [8916]), (c!"\\lessdot", [8918]), (c!"\\gtrdot", [8919]), (c!"\\verymuchless", [8920]), (c!"\\verymuchgreater", [8921]),
  (c!"\\lesseqgtr", [8922]), (c!"\\gtreqless", [8923]), (c!"\\curlyeqprec", [8926]), (c!"\\curlyeqsucc", [8927]), (c!"\\not\\sqsubseteq", [8930]), (c!"\\not\\sqsupseteq", [8931]),
  (c!"\\lnsim", [8934]), (c!"\\gnsim", [8935]), (c!"\\precedesnotsimilar", [8936]), (c!"\\succnsim", [8937]), (c!"\\ntriangleleft", [8938]), (c!"\\ntriangleright", [8939]),
  (c!"\\ntrianglelefteq", [8940]), (c!"\\ntrianglerighteq", [8941]), (c!"\\vdots", [8942]), (c!"\\cdots", [8943]), (c!"\\udots", [8944]), (c!"\\ddots", [8945]),
  (c!"\\barwedge", [8965]), (c!"\\varperspcorrespond", [8966]), (c!"\\lceil", [8968]), (c!"\\rceil", [8969]), (c!"\\lfloor", [8970]), (c!"\\rfloor", [8971]),
  (c!"\\recorder", [8981]), (c!"\\mathchar\"2208", [8982]), (c!"\\ulcorner", [8988]), (c!"\\urcorner", [8989]), (c!"\\llcorner", [8990]), (c!"\\lrcorner", [8991]),
  (c!"\\frown", [8994]), (c!"\\smile", [8995]), (c!"\\lmoustache", [9136]), (c!"\\rmoustache", [9137]), (c!"\\textlangle", [9001]), (c!"\\textrangle", [9002]),
  (c!"\\textblank", [9250]), (c!"\\textvisiblespace", [9251]), (c!"\\square", [9633]), (c!"{\\small\\ensuremath{\\blacksquare}}", [9642]), (c!"\\fbox{~~}", [9645]), (c!"\\bigtriangleup", [9651]),
  (c!"\\blacktriangle", [9652]), (c!"\\vartriangle", [9653]), (c!"\\blacktriangleright", [9656]), (c!"\\triangleright", [9657]), (c!"\\bigtriangledown", [9661]), (c!"\\blacktriangledown", [9662]),
  (c!"\\triangledown", [9663]), (c!"\\blacktriangleleft", [9666]), (c!"\\triangleleft", [9667]), (c!"\\lozenge", [9674]), (c!"\\bigcirc", [9675]), (c!"\\textopenbullet", [9702])]

/-- _latex2unicode_map.py, entries 961 to 1080. -/
def entries8 : List (Str × List Nat) := [
  (c!"\\textbigcircle", [9711]), (c!"\\textmusicalnote", [9834]), (c!"\\quarternote", [9833]), (c!"\\flat", [9837]), (c!"\\natural", [9838]), (c!"\\sharp", [9839]),
  (c!"\\langle", [10216]), (c!"\\rangle", [10217]), (c!"\\longleftarrow", [10229]), (c!"\\longrightarrow", [10230]), (c!"\\longleftrightarrow", [10231]), (c!"\\Longleftarrow", [10232]),
  (c!"\\Longrightarrow", [10233]), (c!"\\Longleftrightarrow", [10234]), (c!"\\longmapsto", [10236]), (c!"\\sim\\joinrel\\leadsto", [10239]), (c!"\\blacklozenge", [10731]), (c!"\\clockoint", [10767]),
  (c!"\\sqrint", [10774]), (c!"\\amalg", [10815]), (c!"\\stackrel{*}{=}", [10862]), (c!"\\leqslant", [10877]), (c!"\\geqslant", [10878]), (c!"\\lessapprox", [10885]),
  (c!"\\gtrapprox", [10886]), (c!"\\lneq", [10887]), (c!"\\gneq", [10888]), (c!"\\lnapprox", [10889]), (c!"\\gnapprox", [10890]), (c!"\\lesseqqgtr", [10891]),
  (c!"\\gtreqqless", [10892]), (c!"\\eqslantless", [10901]), (c!"\\eqslantgtr", [10902]), (c!"\\precneqq", [10933]), (c!"\\succneqq", [10934]), (c!"\\precapprox", [10935]),
  (c!"\\succapprox", [10936]), (c!"\\precnapprox", [10937]), (c!"\\succnapprox", [10938]), (c!"\\subseteqq", [10949]), (c!"\\supseteqq", [10950]), (c!"\\subsetneqq", [10955]),
  (c!"\\supsetneqq", [10956]), (c!"{{/}\\!\\!{/}}", [11005]), (c!"\\mathbf{A}", [119808]), (c!"\\mathbf{B}", [119809]), (c!"\\mathbf{C}", [119810]), (c!"\\mathbf{D}", [119811]),
  (c!"\\mathbf{E}", [119812]), (c!"\\mathbf{F}", [119813]), (c!"\\mathbf{G}", [119814]), (c!"\\mathbf{H}", [119815]), (c!"\\mathbf{I}", [119816]), (c!"\\mathbf{J}", [119817]),
  (c!"\\mathbf{K}", [119818]), (c!"\\mathbf{L}", [119819]), (c!"\\mathbf{M}", [119820]), (c!"\\mathbf{N}", [119821]), (c!"\\mathbf{O}", [119822]), (c!"\\mathbf{P}", [119823]),
  (c!"\\mathbf{Q}", [119824]), (c!"\\mathbf{R}", [119825]), (c!"\\mathbf{S}", [119826]), (c!"\\mathbf{T}", [119827]), (c!"\\mathbf{U}", [119828]), (c!"\\mathbf{V}", [119829]),
  (c!"\\mathbf{W}", [119830]), (c!"\\mathbf{X}", [119831]), (c!"\\mathbf{Y}", [119832]), (c!"\\mathbf{Z}", [119833]), (c!"\\mathbf{a}", [119834]), (c!"\\mathbf{b}", [119835]),
  (c!"\\mathbf{c}", [119836]), (c!"\\mathbf{d}", [119837]), (c!"\\mathbf{e}", [119838]), (c!"\\mathbf{f}", [119839]), (c!"\\mathbf{g}", [119840]), (c!"\\mathbf{h}", [119841]),
  (c!"\\mathbf{i}", [119842]), (c!"\\mathbf{j}", [119843]), (c!"\\mathbf{k}", [119844]), (c!"\\mathbf{l}", [119845]), (c!"\\mathbf{m}", [119846]), (c!"\\mathbf{n}", [119847]),
  (c!"\\mathbf{o}", [119848]), (c!"\\mathbf{p}", [119849]), (c!"\\mathbf{q}", [119850]), (c!"\\mathbf{r}", [119851]), (c!"\\mathbf{s}", [119852]), (c!"\\mathbf{t}", [119853]),
  (c!"\\mathbf{u}", [119854]), (c!"\\mathbf{v}", [119855]), (c!"\\mathbf{w}", [119856]), (c!"\\mathbf{x}", [119857]), (c!"\\mathbf{y}", [119858]), (c!"\\mathbf{z}", [119859]),
  (c!"\\mathit{A}", [119860]), (c!"\\mathit{B}", [119861]), (c!"\\mathit{C}", [119862]), (c!"\\mathit{D}", [119863]), (c!"\\mathit{E}", [119864]), (c!"\\mathit{F}", [119865]),
  (c!"\\mathit{G}", [119866]), (c!"\\mathit{H}", [119867]), (c!"\\mathit{I}", [119868]), (c!"\\mathit{J}", [119869]), (c!"\\mathit{K}", [119870]), (c!"\\mathit{L}", [119871]),
  (c!"\\mathit{M}", [119872]), (c!"\\mathit{N}", [119873]), (c!"\\mathit{O}", [119874]), (c!"\\mathit{P}", [119875]), (c!"\\mathit{Q}", [119876]), (c!"\\mathit{R}", [119877]),
  (c!"\\mathit{S}", [119878]), (c!"\\mathit{T}", [119879]), (c!"\\mathit{U}", [119880]), (c!"\\mathit{V}", [119881]), (c!"\\mathit{W}", [119882]), (c!"\\mathit{X}", [119883])]

/-- _latex2unicode_map.py, entries 1081 to 1200. -/
def entries9 : List (Str × List Nat) := [
  (c!"\\mathit{Y}", [119884]), (c!"\\mathit{Z}", [119885]), (c!"\\mathit{a}", [119886]), (c!"\\mathit{b}", [119887]), (c!"\\mathit{c}", [119888]), (c!"\\mathit{d}", [119889]),
  (c!"\\mathit{e}", [119890]), (c!"\\mathit{f}", [119891]), (c!"\\mathit{g}", [119892]), (c!"\\mathit{h}", [119893]), (c!"\\mathit{i}", [119894]), (c!"\\mathit{j}", [119895]),
  (c!"\\mathit{k}", [119896]), (c!"\\mathit{l}", [119897]), (c!"\\mathit{m}", [119898]), (c!"\\mathit{n}", [119899]), (c!"\\mathit{o}", [119900]), (c!"\\mathit{p}", [119901]),
  (c!"\\mathit{q}", [119902]), (c!"\\mathit{r}", [119903]), (c!"\\mathit{s}", [119904]), (c!"\\mathit{t}", [119905]), (c!"\\mathit{u}", [119906]), (c!"\\mathit{v}", [119907]),
  (c!"\\mathit{w}", [119908]), (c!"\\mathit{x}", [119909]), (c!"\\mathit{y}", [119910]), (c!"\\mathit{z}", [119911]), (c!"\\boldsymbol{\\mathit{A}}", [119912]), (c!"\\boldsymbol{\\mathit{B}}", [119913]),
  (c!"\\boldsymbol{\\mathit{C}}", [119914]), (c!"\\boldsymbol{\\mathit{D}}", [119915]), (c!"\\boldsymbol{\\mathit{E}}", [119916]), (c!"\\boldsymbol{\\mathit{F}}", [119917]), (c!"\\boldsymbol{\\mathit{G}}", [119918]), (c!"\\boldsymbol{\\mathit{H}}", [119919]),
  (c!"\\boldsymbol{\\mathit{I}}", [119920]), (c!"\\boldsymbol{\\mathit{J}}", [119921]), (c!"\\boldsymbol{\\mathit{K}}", [119922]), (c!"\\boldsymbol{\\mathit{L}}", [119923]), (c!"\\boldsymbol{\\mathit{M}}", [119924]), (c!"\\boldsymbol{\\mathit{N}}", [119925]),
  (c!"\\boldsymbol{\\mathit{O}}", [119926]), (c!"\\boldsymbol{\\mathit{P}}", [119927]), (c!"\\boldsymbol{\\mathit{Q}}", [119928]), (c!"\\boldsymbol{\\mathit{R}}", [119929]), (c!"\\boldsymbol{\\mathit{S}}", [119930]), (c!"\\boldsymbol{\\mathit{T}}", [119931]),
  (c!"\\boldsymbol{\\mathit{U}}", [119932]), (c!"\\boldsymbol{\\mathit{V}}", [119933]), (c!"\\boldsymbol{\\mathit{W}}", [119934]), (c!"\\boldsymbol{\\mathit{X}}", [119935]), (c!"\\boldsymbol{\\mathit{Y}}", [119936]), (c!"\\boldsymbol{\\mathit{Z}}", [119937]),
  (c!"\\boldsymbol{\\mathit{a}}", [119938]), (c!"\\boldsymbol{\\mathit{b}}", [119939]), (c!"\\boldsymbol{\\mathit{c}}", [119940]), (c!"\\boldsymbol{\\mathit{d}}", [119941]), (c!"\\boldsymbol{\\mathit{e}}", [119942]), (c!"\\boldsymbol{\\mathit{f}}", [119943]),
  (c!"\\boldsymbol{\\mathit{g}}", [119944]), (c!"\\boldsymbol{\\mathit{h}}", [119945]), (c!"\\boldsymbol{\\mathit{i}}", [119946]), (c!"\\boldsymbol{\\mathit{j}}", [119947]), (c!"\\boldsymbol{\\mathit{k}}", [119948]), (c!"\\boldsymbol{\\mathit{l}}", [119949]),
  (c!"\\boldsymbol{\\mathit{m}}", [119950]), (c!"\\boldsymbol{\\mathit{n}}", [119951]), (c!"\\boldsymbol{\\mathit{o}}", [119952]), (c!"\\boldsymbol{\\mathit{p}}", [119953]), (c!"\\boldsymbol{\\mathit{q}}", [119954]), (c!"\\boldsymbol{\\mathit{r}}", [119955]),
  (c!"\\boldsymbol{\\mathit{s}}", [119956]), (c!"\\boldsymbol{\\mathit{t}}", [119957]), (c!"\\boldsymbol{\\mathit{u}}", [119958]), (c!"\\boldsymbol{\\mathit{v}}", [119959]), (c!"\\boldsymbol{\\mathit{w}}", [119960]), (c!"\\boldsymbol{\\mathit{x}}", [119961]),
  (c!"\\boldsymbol{\\mathit{y}}", [119962]), (c!"\\boldsymbol{\\mathit{z}}", [119963]), (c!"\\mathscr{A}", [119964]), (c!"\\mathscr{C}", [119966]), (c!"\\mathscr{D}", [119967]), (c!"\\mathscr{G}", [119970]),
  (c!"\\mathscr{J}", [119973]), (c!"\\mathscr{K}", [119974]), (c!"\\mathscr{N}", [119977]), (c!"\\mathscr{O}", [119978]), (c!"\\mathscr{P}", [119979]), (c!"\\mathscr{Q}", [119980]),
  (c!"\\mathscr{S}", [119982]), (c!"\\mathscr{T}", [119983]), (c!"\\mathscr{U}", [119984]), (c!"\\mathscr{V}", [119985]), (c!"\\mathscr{W}", [119986]), (c!"\\mathscr{X}", [119987]),
  (c!"\\mathscr{Y}", [119988]), (c!"\\mathscr{Z}", [119989]), (c!"\\mathscr{a}", [119990]), (c!"\\mathscr{b}", [119991]), (c!"\\mathscr{c}", [119992]), (c!"\\mathscr{d}", [119993]),
  (c!"\\mathscr{f}", [119995]), (c!"\\mathscr{h}", [119997]), (c!"\\mathscr{i}", [119998]), (c!"\\mathscr{j}", [119999]), (c!"\\mathscr{k}", [120000]), (c!"\\mathscr{l}", [120001]),
  (c!"\\mathscr{m}", [120002]), (c!"\\mathscr{n}", [120003]), (c!"\\mathscr{p}", [120005]), (c!"\\mathscr{q}", [120006]), (c!"\\mathscr{r}", [120007]), (c!"\\mathscr{s}", [120008]),
  (c!"\\mathscr{t}", [120009]), (c!"\\mathscr{u}", [120010]), (c!"\\mathscr{v}", [120011]), (c!"\\mathscr{w}", [120012]), (c!"\\mathscr{x}", [120013]), (c!"\\mathscr{y}", [120014])]

/-- _latex2unicode_map.py, entries 1201 to 1320. -/
def entries10 : List (Str × List Nat) := [
  (c!"\\mathscr{z}", [120015]), (c!"\\mathfrak{A}", [120068]), (c!"\\mathfrak{B}", [120069]), (c!"\\mathfrak{D}", [120071]), (c!"\\mathfrak{E}", [120072]), (c!"\\mathfrak{F}", [120073]),
  (c!"\\mathfrak{G}", [120074]), (c!"\\mathfrak{J}", [120077]), (c!"\\mathfrak{K}", [120078]), (c!"\\mathfrak{L}", [120079]), (c!"\\mathfrak{M}", [120080]), (c!"\\mathfrak{N}", [120081]),
  (c!"\\mathfrak{O}", [120082]), (c!"\\mathfrak{P}", [120083]), (c!"\\mathfrak{Q}", [120084]), (c!"\\mathfrak{S}", [120086]), (c!"\\mathfrak{T}", [120087]), (c!"\\mathfrak{U}", [120088]),
  (c!"\\mathfrak{V}", [120089]), (c!"\\mathfrak{W}", [120090]), (c!"\\mathfrak{X}", [120091]), (c!"\\mathfrak{Y}", [120092]), (c!"\\mathfrak{a}", [120094]), (c!"\\mathfrak{b}", [120095]),
  (c!"\\mathfrak{c}", [120096]), (c!"\\mathfrak{d}", [120097]), (c!"\\mathfrak{e}", [120098]), (c!"\\mathfrak{f}", [120099]), (c!"\\mathfrak{g}", [120100]), (c!"\\mathfrak{h}", [120101]),
  (c!"\\mathfrak{i}", [120102]), (c!"\\mathfrak{j}", [120103]), (c!"\\mathfrak{k}", [120104]), (c!"\\mathfrak{l}", [120105]), (c!"\\mathfrak{m}", [120106]), (c!"\\mathfrak{n}", [120107]),
  (c!"\\mathfrak{o}", [120108]), (c!"\\mathfrak{p}", [120109]), (c!"\\mathfrak{q}", [120110]), (c!"\\mathfrak{r}", [120111]), (c!"\\mathfrak{s}", [120112]), (c!"\\mathfrak{t}", [120113]),
  (c!"\\mathfrak{u}", [120114]), (c!"\\mathfrak{v}", [120115]), (c!"\\mathfrak{w}", [120116]), (c!"\\mathfrak{x}", [120117]), (c!"\\mathfrak{y}", [120118]), (c!"\\mathfrak{z}", [120119]),
  (c!"\\mathbb{A}", [120120]), (c!"\\mathbb{B}", [120121]), (c!"\\mathbb{D}", [120123]), (c!"\\mathbb{E}", [120124]), (c!"\\mathbb{F}", [120125]), (c!"\\mathbb{G}", [120126]),
  (c!"\\mathbb{I}", [120128]), (c!"\\mathbb{J}", [120129]), (c!"\\mathbb{K}", [120130]), (c!"\\mathbb{L}", [120131]), (c!"\\mathbb{M}", [120132]), (c!"\\mathbb{O}", [120134]),
  (c!"\\mathbb{S}", [120138]), (c!"\\mathbb{T}", [120139]), (c!"\\mathbb{U}", [120140]), (c!"\\mathbb{V}", [120141]), (c!"\\mathbb{W}", [120142]), (c!"\\mathbb{X}", [120143]),
  (c!"\\mathbb{Y}", [120144]), (c!"\\mathbb{a}", [120146]), (c!"\\mathbb{b}", [120147]), (c!"\\mathbb{c}", [120148]), (c!"\\mathbb{d}", [120149]), (c!"\\mathbb{e}", [120150]),
  (c!"\\mathbb{f}", [120151]), (c!"\\mathbb{g}", [120152]), (c!"\\mathbb{h}", [120153]), (c!"\\mathbb{i}", [120154]), (c!"\\mathbb{j}", [120155]), (c!"\\mathbb{k}", [120156]),
  (c!"\\mathbb{l}", [120157]), (c!"\\mathbb{m}", [120158]), (c!"\\mathbb{n}", [120159]), (c!"\\mathbb{o}", [120160]), (c!"\\mathbb{p}", [120161]), (c!"\\mathbb{q}", [120162]),
  (c!"\\mathbb{r}", [120163]), (c!"\\mathbb{s}", [120164]), (c!"\\mathbb{t}", [120165]), (c!"\\mathbb{u}", [120166]), (c!"\\mathbb{v}", [120167]), (c!"\\mathbb{w}", [120168]),
  (c!"\\mathbb{x}", [120169]), (c!"\\mathbb{y}", [120170]), (c!"\\mathbb{z}", [120171]), (c!"\\mathsf{A}", [120224]), (c!"\\mathsf{B}", [120225]), (c!"\\mathsf{C}", [120226]),
  (c!"\\mathsf{D}", [120227]), (c!"\\mathsf{E}", [120228]), (c!"\\mathsf{F}", [120229]), (c!"\\mathsf{G}", [120230]), (c!"\\mathsf{H}", [120231]), (c!"\\mathsf{I}", [120232]),
  (c!"\\mathsf{J}", [120233]), (c!"\\mathsf{K}", [120234]), (c!"\\mathsf{L}", [120235]), (c!"\\mathsf{M}", [120236]), (c!"\\mathsf{N}", [120237]), (c!"\\mathsf{O}", [120238]),
  (c!"\\mathsf{P}", [120239]), (c!"\\mathsf{Q}", [120240]), (c!"\\mathsf{R}", [120241]), (c!"\\mathsf{S}", [120242]), (c!"\\mathsf{T}", [120243]), (c!"\\mathsf{U}", [120244]),
  (c!"\\mathsf{V}", [120245]), (c!"\\mathsf{W}", [120246]), (c!"\\mathsf{X}", [120247]), (c!"\\mathsf{Y}", [120248]), (c!"\\mathsf{Z}", [120249]), (c!"\\mathsf{a}", [120250])]

/-- _latex2unicode_map.py, entries 1321 to 1440. -/
def entries11 : List (Str × List Nat) := [
  (c!"\\mathsf{b}", [120251]), (c!"\\mathsf{c}", [120252]), (c!"\\mathsf{d}", [120253]), (c!"\\mathsf{e}", [120254]), (c!"\\mathsf{f}", [120255]), (c!"\\mathsf{g}", [120256]),
  (c!"\\mathsf{h}", [120257]), (c!"\\mathsf{i}", [120258]), (c!"\\mathsf{j}", [120259]), (c!"\\mathsf{k}", [120260]), (c!"\\mathsf{l}", [120261]), (c!"\\mathsf{m}", [120262]),
  (c!"\\mathsf{n}", [120263]), (c!"\\mathsf{o}", [120264]), (c!"\\mathsf{p}", [120265]), (c!"\\mathsf{q}", [120266]), (c!"\\mathsf{r}", [120267]), (c!"\\mathsf{s}", [120268]),
  (c!"\\mathsf{t}", [120269]), (c!"\\mathsf{u}", [120270]), (c!"\\mathsf{v}", [120271]), (c!"\\mathsf{w}", [120272]), (c!"\\mathsf{x}", [120273]), (c!"\\mathsf{y}", [120274]),
  (c!"\\mathsf{z}", [120275]), (c!"\\mathtt{A}", [120432]), (c!"\\mathtt{B}", [120433]), (c!"\\mathtt{C}", [120434]), (c!"\\mathtt{D}", [120435]), (c!"\\mathtt{E}", [120436]),
  (c!"\\mathtt{F}", [120437]), (c!"\\mathtt{G}", [120438]), (c!"\\mathtt{H}", [120439]), (c!"\\mathtt{I}", [120440]), (c!"\\mathtt{J}", [120441]), (c!"\\mathtt{K}", [120442]),
  (c!"\\mathtt{L}", [120443]), (c!"\\mathtt{M}", [120444]), (c!"\\mathtt{N}", [120445]), (c!"\\mathtt{O}", [120446]), (c!"\\mathtt{P}", [120447]), (c!"\\mathtt{Q}", [120448]),
  (c!"\\mathtt{R}", [120449]), (c!"\\mathtt{S}", [120450]), (c!"\\mathtt{T}", [120451]), (c!"\\mathtt{U}", [120452]), (c!"\\mathtt{V}", [120453]), (c!"\\mathtt{W}", [120454]),
  (c!"\\mathtt{X}", [120455]), (c!"\\mathtt{Y}", [120456]), (c!"\\mathtt{Z}", [120457]), (c!"\\mathtt{a}", [120458]), (c!"\\mathtt{b}", [120459]), (c!"\\mathtt{c}", [120460]),
  (c!"\\mathtt{d}", [120461]), (c!"\\mathtt{e}", [120462]), (c!"\\mathtt{f}", [120463]), (c!"\\mathtt{g}", [120464]), (c!"\\mathtt{h}", [120465]), (c!"\\mathtt{i}", [120466]),
  (c!"\\mathtt{j}", [120467]), (c!"\\mathtt{k}", [120468]), (c!"\\mathtt{l}", [120469]), (c!"\\mathtt{m}", [120470]), (c!"\\mathtt{n}", [120471]), (c!"\\mathtt{o}", [120472]),
  (c!"\\mathtt{p}", [120473]), (c!"\\mathtt{q}", [120474]), (c!"\\mathtt{r}", [120475]), (c!"\\mathtt{s}", [120476]), (c!"\\mathtt{t}", [120477]), (c!"\\mathtt{u}", [120478]),
  (c!"\\mathtt{v}", [120479]), (c!"\\mathtt{w}", [120480]), (c!"\\mathtt{x}", [120481]), (c!"\\mathtt{y}", [120482]), (c!"\\mathtt{z}", [120483]), (c!"\\mathbf{0}", [120782]),
  (c!"\\mathbf{1}", [120783]), (c!"\\mathbf{2}", [120784]), (c!"\\mathbf{3}", [120785]), (c!"\\mathbf{4}", [120786]), (c!"\\mathbf{5}", [120787]), (c!"\\mathbf{6}", [120788]),
  (c!"\\mathbf{7}", [120789]), (c!"\\mathbf{8}", [120790]), (c!"\\mathbf{9}", [120791]), (c!"\\mathbb{0}", [120792]), (c!"\\mathbb{1}", [120793]), (c!"\\mathbb{2}", [120794]),
  (c!"\\mathbb{3}", [120795]), (c!"\\mathbb{4}", [120796]), (c!"\\mathbb{5}", [120797]), (c!"\\mathbb{6}", [120798]), (c!"\\mathbb{7}", [120799]), (c!"\\mathbb{8}", [120800]),
  (c!"\\mathbb{9}", [120801]), (c!"\\mathsf{0}", [120802]), (c!"\\mathsf{1}", [120803]), (c!"\\mathsf{2}", [120804]), (c!"\\mathsf{3}", [120805]), (c!"\\mathsf{4}", [120806]),
  (c!"\\mathsf{5}", [120807]), (c!"\\mathsf{6}", [120808]), (c!"\\mathsf{7}", [120809]), (c!"\\mathsf{8}", [120810]), (c!"\\mathsf{9}", [120811]), (c!"\\mathtt{0}", [120822]),
  (c!"\\mathtt{1}", [120823]), (c!"\\mathtt{2}", [120824]), (c!"\\mathtt{3}", [120825]), (c!"\\mathtt{4}", [120826]), (c!"\\mathtt{5}", [120827]), (c!"\\mathtt{6}", [120828]),
  (c!"\\mathtt{7}", [120829]), (c!"\\mathtt{8}", [120830]), (c!"\\mathtt{9}", [120831]), (c!"\\textdollar", [36]), (c!"\\textquotesingle", [39]), (c!"\\ast", [42])]

/-- _latex2unicode_map.py, entries 1441 to 1560. -/
def entries12 : List (Str × List Nat) := [
  (c!"\\^{}", [94]), (c!"\\textasciigrave", [96]), (c!"\\lbrace", [123]), (c!"\\vert", [124]), (c!"\\rbrace", [125]), (c!"\\lnot", [172]),
  (c!"\\pm", [177]), (c!"{^2}", [178]), (c!"{^3}", [179]), (c!"\\mathrm{\\mu}", [181]), (c!"\\c{}", [184]), (c!"{^1}", [185]),
  (c!"\\`{A}", [192]), (c!"\\'{A}", [193]), (c!"\\^{A}", [194]), (c!"\\~{A}", [195]), (c!"\\\"{A}", [196]), (c!"\\AA", [197]),
  (c!"\\`{E}", [200]), (c!"\\'{E}", [201]), (c!"\\^{E}", [202]), (c!"\\\"{E}", [203]), (c!"\\`{I}", [204]), (c!"\\'{I}", [205]),
  (c!"\\^{I}", [206]), (c!"\\\"{I}", [207]), (c!"\\~{N}", [209]), (c!"\\`{O}", [210]), (c!"\\'{O}", [211]), (c!"\\^{O}", [212]),
  (c!"\\~{O}", [213]), (c!"\\\"{O}", [214]), (c!"\\`{U}", [217]), (c!"\\^{U}", [219]), (c!"\\\"{U}", [220]), (c!"\\'{Y}", [221]),
  (c!"\\`{a}", [224]), (c!"\\'{a}", [225]), (c!"\\^{a}", [226]), (c!"\\~{a}", [227]), (c!"\\\"{a}", [228]), (c!"\\aa", [229]),
  (c!"\\`{e}", [232]), (c!"\\'{e}", [233]), (c!"\\^{e}", [234]), (c!"\\\"{e}", [235]), (c!"\\`{\\i}", [236]), (c!"\\'{\\i}", [237]),
  (c!"\\^{\\i}", [238]), (c!"\\\"{\\i}", [239]), (c!"\\~{n}", [241]), (c!"\\`{o}", [242]), (c!"\\^{o}", [244]), (c!"\\~{o}", [245]),
  (c!"\\\"{o}", [246]), (c!"\\div", [247]), (c!"\\`{u}", [249]), (c!"\\^{u}", [251]), (c!"\\\"{u}", [252]), (c!"\\'{y}", [253]),
  (c!"\\\"{y}", [255]), (c!"\\'{C}", [262]), (c!"\\'{c}", [263]), (c!"{\\fontencoding{LELA}\\selectfont\\char40}", [294]), (c!"\\~{\\i}", [297]), (c!"\\={\\i}", [299]),
  (c!"\\u{\\i}", [301]), (c!"\\.{I}", [304]), (c!"\\^{\\j}", [309]), (c!"{\\fontencoding{LELA}\\selectfont\\char91}", [312]), (c!"\\'{L}", [313]), (c!"\\'{l}", [314]),
  (c!"{\\fontencoding{LELA}\\selectfont\\char201}", [319]), (c!"{\\fontencoding{LELA}\\selectfont\\char202}", [320]), (c!"\\'{N}", [323]), (c!"\\'{n}", [324]), (c!"\\'{R}", [340]), (c!"\\'{r}", [341]),
  (c!"\\'{S}", [346]), (c!"\\'{s}", [347]), (c!"{\\fontencoding{LELA}\\selectfont\\char47}", [358]), (c!"{\\fontencoding{LELA}\\selectfont\\char63}", [359]), (c!"\\H{U}", [368]), (c!"\\H{u}", [369]),
  (c!"\\\"{Y}", [376]), (c!"\\'{Z}", [377]), (c!"\\'{z}", [378]), (c!"\\.{Z}", [379]), (c!"\\.{z}", [380]), (c!"\\eth", [426]),
  (c!"{\\fontencoding{LELA}\\selectfont\\char195}", [442]), (c!"\\textdoublepipe", [450]), (c!"{\\fontencoding{LEIP}\\selectfont\\char61}", [600]), (c!"{\\fontencoding{LEIP}\\selectfont\\char202}", [639]), (c!"\\texttildelow", [732]), (c!"\\H{}", [733]),
  (c!"\\tone{55}", [741]), (c!"\\tone{44}", [742]), (c!"\\tone{33}", [743]), (c!"\\tone{22}", [744]), (c!"\\tone{11}", [745]), (c!"\\`", [768]),
  (c!"\\'", [769]), (c!"\\^", [770]), (c!"\\~", [771]), (c!"\\=", [772]), (c!"\\u", [774]), (c!"\\.", [775]),
  (c!"\\\"", [776]), (c!"\\r", [778]), (c!"\\H", [779]), (c!"\\v", [780]), (c!"\\cyrchar\\C", [783]), (c!"{\\fontencoding{LECO}\\selectfont\\char177}", [785]),
  (c!"{\\fontencoding{LECO}\\selectfont\\char184}", [792]), (c!"{\\fontencoding{LECO}\\selectfont\\char185}", [793]), (c!"\\c", [807]), (c!"\\k", [808]), (c!"{\\fontencoding{LECO}\\selectfont\\char203}", [811]), (c!"{\\fontencoding{LECO}\\selectfont\\char207}", [815])]

/-- _latex2unicode_map.py, entries 1561 to 1680. -/
def entries13 : List (Str × List Nat) := [
  (c!"{\\fontencoding{LECO}\\selectfont\\char215}", [823]), (c!"{\\fontencoding{LECO}\\selectfont\\char216}", [824]), (c!"{\\fontencoding{LECO}\\selectfont\\char218}", [826]), (c!"{\\fontencoding{LECO}\\selectfont\\char219}", [827]), (c!"{\\fontencoding{LECO}\\selectfont\\char220}", [828]), (c!"{\\fontencoding{LECO}\\selectfont\\char221}", [829]),
  (c!"{\\fontencoding{LECO}\\selectfont\\char225}", [865]), (c!"\\'{H}", [905]), (c!"\\'{}{I}", [906]), (c!"\\mathrm{'Y}", [910]), (c!"\\mathrm{'\\Omega}", [911]), (c!"\\Alpha", [913]),
  (c!"\\Beta", [914]), (c!"\\Epsilon", [917]), (c!"\\Zeta", [918]), (c!"\\Eta", [919]), (c!"\\Iota", [921]), (c!"\\Kappa", [922]),
  (c!"\\Rho", [929]), (c!"\\Tau", [932]), (c!"\\Chi", [935]), (c!"\\mathrm{\\ddot{I}}", [938]), (c!"\\mathrm{\\ddot{Y}}", [939]), (c!"\\'{$\\alpha$}", [940]),
  (c!"\\acute{\\epsilon}", [941]), (c!"\\acute{\\eta}", [942]), (c!"\\acute{\\iota}", [943]), (c!"\\texttheta", [952]), (c!"\\ddot{\\iota}", [970]), (c!"\\acute{\\upsilon}", [973]),
  (c!"\\acute{\\omega}", [974]), (c!"\\Pisymbol{ppi022}{87}", [976]), (c!"\\textvartheta", [977]), (c!"\\Stigma", [986]), (c!"\\Digamma", [988]), (c!"\\digamma", [989]),
  (c!"\\Koppa", [990]), (c!"\\Sampi", [992]), (c!"\\textTheta", [1012]), (c!"\\cyrchar\\CYRYO", [1025]), (c!"\\cyrchar\\CYRDJE", [1026]), (c!"\\cyrchar{\\'\\CYRG}", [1027]),
  (c!"\\cyrchar\\CYRIE", [1028]), (c!"\\cyrchar\\CYRDZE", [1029]), (c!"\\cyrchar\\CYRII", [1030]), (c!"\\cyrchar\\CYRYI", [1031]), (c!"\\cyrchar\\CYRJE", [1032]), (c!"\\cyrchar\\CYRLJE", [1033]),
  (c!"\\cyrchar\\CYRNJE", [1034]), (c!"\\cyrchar\\CYRTSHE", [1035]), (c!"\\cyrchar{\\'\\CYRK}", [1036]), (c!"\\cyrchar\\CYRUSHRT", [1038]), (c!"\\cyrchar\\CYRDZHE", [1039]), (c!"\\cyrchar\\CYRA", [1040]),
  (c!"\\cyrchar\\CYRB", [1041]), (c!"\\cyrchar\\CYRV", [1042]), (c!"\\cyrchar\\CYRG", [1043]), (c!"\\cyrchar\\CYRD", [1044]), (c!"\\cyrchar\\CYRE", [1045]), (c!"\\cyrchar\\CYRZH", [1046]),
  (c!"\\cyrchar\\CYRZ", [1047]), (c!"\\cyrchar\\CYRI", [1048]), (c!"\\cyrchar\\CYRISHRT", [1049]), (c!"\\cyrchar\\CYRK", [1050]), (c!"\\cyrchar\\CYRL", [1051]), (c!"\\cyrchar\\CYRM", [1052]),
  (c!"\\cyrchar\\CYRN", [1053]), (c!"\\cyrchar\\CYRO", [1054]), (c!"\\cyrchar\\CYRP", [1055]), (c!"\\cyrchar\\CYRR", [1056]), (c!"\\cyrchar\\CYRS", [1057]), (c!"\\cyrchar\\CYRT", [1058]),
  (c!"\\cyrchar\\CYRU", [1059]), (c!"\\cyrchar\\CYRF", [1060]), (c!"\\cyrchar\\CYRH", [1061]), (c!"\\cyrchar\\CYRC", [1062]), (c!"\\cyrchar\\CYRCH", [1063]), (c!"\\cyrchar\\CYRSH", [1064]),
  (c!"\\cyrchar\\CYRSHCH", [1065]), (c!"\\cyrchar\\CYRHRDSN", [1066]), (c!"\\cyrchar\\CYRERY", [1067]), (c!"\\cyrchar\\CYRSFTSN", [1068]), (c!"\\cyrchar\\CYREREV", [1069]), (c!"\\cyrchar\\CYRYU", [1070]),
  (c!"\\cyrchar\\CYRYA", [1071]), (c!"\\cyrchar\\cyra", [1072]), (c!"\\cyrchar\\cyrb", [1073]), (c!"\\cyrchar\\cyrv", [1074]), (c!"\\cyrchar\\cyrg", [1075]), (c!"\\cyrchar\\cyrd", [1076]),
  (c!"\\cyrchar\\cyre", [1077]), (c!"\\cyrchar\\cyrzh", [1078]), (c!"\\cyrchar\\cyrz", [1079]), (c!"\\cyrchar\\cyri", [1080]), (c!"\\cyrchar\\cyrishrt", [1081]), (c!"\\cyrchar\\cyrk", [1082]),
  (c!"\\cyrchar\\cyrl", [1083]), (c!"\\cyrchar\\cyrm", [1084]), (c!"\\cyrchar\\cyrn", [1085]), (c!"\\cyrchar\\cyro", [1086]), (c!"\\cyrchar\\cyrp", [1087]), (c!"\\cyrchar\\cyrr", [1088]),
  (c!"\\cyrchar\\cyrs", [1089]), (c!"\\cyrchar\\cyrt", [1090]), (c!"\\cyrchar\\cyru", [1091]), (c!"\\cyrchar\\cyrf", [1092]), (c!"\\cyrchar\\cyrh", [1093]), (c!"\\cyrchar\\cyrc", [1094]),
  (c!"\\cyrchar\\cyrch", [1095]), (c!"\\cyrchar\\cyrsh", [1096]), (c!"\\cyrchar\\cyrshch", [1097]), (c!"\\cyrchar\\cyrhrdsn", [1098]), (c!"\\cyrchar\\cyrery", [1099]), (c!"\\cyrchar\\cyrsftsn", [1100]),
  (c!"\\cyrchar\\cyrerev", [1101]), (c!"\\cyrchar\\cyryu", [1102]), (c!"\\cyrchar\\cyrya", [1103]), (c!"\\cyrchar\\cyryo", [1105]), (c!"\\cyrchar\\cyrdje", [1106]), (c!"\\cyrchar{\\'\\cyrg}", [1107])]

/-- _latex2unicode_map.py, entries 1681 to 1800. -/
def entries14 : List (Str × List Nat) := [
  (c!"\\cyrchar\\cyrie", [1108]), (c!"\\cyrchar\\cyrdze", [1109]), (c!"\\cyrchar\\cyrii", [1110]), (c!"\\cyrchar\\cyryi", [1111]), (c!"\\cyrchar\\cyrje", [1112]), (c!"\\cyrchar\\cyrlje", [1113]),
  (c!"\\cyrchar\\cyrnje", [1114]), (c!"\\cyrchar\\cyrtshe", [1115]), (c!"\\cyrchar{\\'\\cyrk}", [1116]), (c!"\\cyrchar\\cyrushrt", [1118]), (c!"\\cyrchar\\cyrdzhe", [1119]), (c!"\\cyrchar\\CYRYAT", [1122]),
  (c!"\\cyrchar\\CYRBYUS", [1130]), (c!"\\cyrchar\\CYRFITA", [1138]), (c!"\\cyrchar\\CYRIZH", [1140]), (c!"\\cyrchar\\CYRSEMISFTSN", [1164]), (c!"\\cyrchar\\cyrsemisftsn", [1165]), (c!"\\cyrchar\\CYRRTICK", [1166]),
  (c!"\\cyrchar\\cyrrtick", [1167]), (c!"\\cyrchar\\CYRGUP", [1168]), (c!"\\cyrchar\\cyrgup", [1169]), (c!"\\cyrchar\\CYRGHCRS", [1170]), (c!"\\cyrchar\\cyrghcrs", [1171]), (c!"\\cyrchar\\CYRGHK", [1172]),
  (c!"\\cyrchar\\cyrghk", [1173]), (c!"\\cyrchar\\CYRZHDSC", [1174]), (c!"\\cyrchar\\cyrzhdsc", [1175]), (c!"\\cyrchar\\CYRZDSC", [1176]), (c!"\\cyrchar\\cyrzdsc", [1177]), (c!"\\cyrchar\\CYRKDSC", [1178]),
  (c!"\\cyrchar\\cyrkdsc", [1179]), (c!"\\cyrchar\\CYRKVCRS", [1180]), (c!"\\cyrchar\\cyrkvcrs", [1181]), (c!"\\cyrchar\\CYRKHCRS", [1182]), (c!"\\cyrchar\\cyrkhcrs", [1183]), (c!"\\cyrchar\\CYRKBEAK", [1184]),
  (c!"\\cyrchar\\cyrkbeak", [1185]), (c!"\\cyrchar\\CYRNDSC", [1186]), (c!"\\cyrchar\\cyrndsc", [1187]), (c!"\\cyrchar\\CYRNG", [1188]), (c!"\\cyrchar\\cyrng", [1189]), (c!"\\cyrchar\\CYRPHK", [1190]),
  (c!"\\cyrchar\\cyrphk", [1191]), (c!"\\cyrchar\\CYRABHHA", [1192]), (c!"\\cyrchar\\cyrabhha", [1193]), (c!"\\cyrchar\\CYRSDSC", [1194]), (c!"\\cyrchar\\cyrsdsc", [1195]), (c!"\\cyrchar\\CYRTDSC", [1196]),
  (c!"\\cyrchar\\cyrtdsc", [1197]), (c!"\\cyrchar\\CYRY", [1198]), (c!"\\cyrchar\\cyry", [1199]), (c!"\\cyrchar\\CYRYHCRS", [1200]), (c!"\\cyrchar\\cyryhcrs", [1201]), (c!"\\cyrchar\\CYRHDSC", [1202]),
  (c!"\\cyrchar\\cyrhdsc", [1203]), (c!"\\cyrchar\\CYRTETSE", [1204]), (c!"\\cyrchar\\cyrtetse", [1205]), (c!"\\cyrchar\\CYRCHRDSC", [1206]), (c!"\\cyrchar\\cyrchrdsc", [1207]), (c!"\\cyrchar\\CYRCHVCRS", [1208]),
  (c!"\\cyrchar\\cyrchvcrs", [1209]), (c!"\\cyrchar\\CYRSHHA", [1210]), (c!"\\cyrchar\\cyrshha", [1211]), (c!"\\cyrchar\\CYRABHCH", [1212]), (c!"\\cyrchar\\cyrabhch", [1213]), (c!"\\cyrchar\\CYRABHCHDSC", [1214]),
  (c!"\\cyrchar\\cyrabhchdsc", [1215]), (c!"\\cyrchar\\CYRpalochka", [1216]), (c!"\\cyrchar\\CYRKHK", [1219]), (c!"\\cyrchar\\cyrkhk", [1220]), (c!"\\cyrchar\\CYRNHK", [1223]), (c!"\\cyrchar\\cyrnhk", [1224]),
  (c!"\\cyrchar\\CYRCHLDSC", [1227]), (c!"\\cyrchar\\cyrchldsc", [1228]), (c!"\\cyrchar\\CYRAE", [1236]), (c!"\\cyrchar\\cyrae", [1237]), (c!"\\cyrchar\\CYRSCHWA", [1240]), (c!"\\cyrchar\\cyrschwa", [1241]),
  (c!"\\cyrchar\\CYRABHDZE", [1248]), (c!"\\cyrchar\\cyrabhdze", [1249]), (c!"\\cyrchar\\CYROTLD", [1256]), (c!"\\cyrchar\\cyrotld", [1257]), (c!"\\hspace{0.6em}", [8194]), (c!"\\hspace{1em}", [8195]),
  (c!"\\hspace{0.166em}", [8198]), (c!"\\hphantom{0}", [8199]), (c!"\\hphantom{,}", [8200]), (c!"\\mkern1mu ", [8202]), (c!"\\rule{1em}{1pt}", [8213]), (c!"\\ldots", [8230]),
  (c!"{'}", [8242]), (c!"{''}", [8243]), (c!"{'''}", [8244]), (c!"\\mkern4mu ", [8287]), (c!"\\mbox{\\texteuro} ", [8364]), (c!"\\dddot", [8411]),
  (c!"\\ddddot", [8412]), (c!"\\mathscr{g}", [8458]), (c!"\\hslash", [8463]), (c!"\\cyrchar\\textnumero", [8470]), (c!"\\mho", [8487]), (c!"\\mathscr{e}", [8495]),
  (c!"\\mathscr{o}", [8500]), (c!"\\leftarrow", [8592]), (c!"\\uparrow", [8593]), (c!"\\rightarrow", [8594]), (c!"\\downarrow", [8595]), (c!"\\not\\in", [8713]),
  (c!"\\setminus", [8726]), (c!"{_\\ast}", [8727]), (c!"\\surd", [8730]), (c!"\\int\\!\\int", [8748]), (c!"\\int\\!\\int\\!\\int", [8749]), (c!"\\Colon", [8759]),
  (c!"\\not =", [8800]), (c!"\\not<", [8814]), (c!"\\not>", [8815]), (c!"\\not\\leq", [8816]), (c!"\\not\\geq", [8817]), (c!"\\lessequivlnt", [8818])]

/-- _latex2unicode_map.py, entries 1801 to 1920. -/
def entries15 : List (Str × List Nat) := [
  (c!"\\greaterequivlnt", [8819]), (c!"\\preccurlyeq", [8828]), (c!"\\succcurlyeq", [8829]), (c!"\\not\\prec", [8832]), (c!"\\not\\succ", [8833]), (c!"\\not\\subseteq", [8840]),
  (c!"\\not\\supseteq", [8841]), (c!"\\upslopeellipsis", [8944]), (c!"\\downslopeellipsis", [8945]), (c!"\\ding{172}", [9312]), (c!"\\ding{173}", [9313]), (c!"\\ding{174}", [9314]),
  (c!"\\ding{175}", [9315]), (c!"\\ding{176}", [9316]), (c!"\\ding{177}", [9317]), (c!"\\ding{178}", [9318]), (c!"\\ding{179}", [9319]), (c!"\\ding{180}", [9320]),
  (c!"\\ding{181}", [9321]), (c!"\\circledS", [9416]), (c!"\\diagup", [9585]), (c!"\\ding{110}", [9632]), (c!"\\ding{115}", [9650]), (c!"\\ding{116}", [9660]),
  (c!"\\ding{117}", [9670]), (c!"\\ding{108}", [9679]), (c!"\\ding{119}", [9687]), (c!"\\ding{72}", [9733]), (c!"\\ding{73}", [9734]), (c!"\\ding{37}", [9742]),
  (c!"\\ding{42}", [9755]), (c!"\\ding{43}", [9758]), (c!"\\rightmoon", [9790]), (c!"\\mercury", [9791]), (c!"\\venus", [9792]), (c!"\\male", [9794]),
  (c!"\\jupiter", [9795]), (c!"\\saturn", [9796]), (c!"\\uranus", [9797]), (c!"\\neptune", [9798]), (c!"\\pluto", [9799]), (c!"\\aries", [9800]),
  (c!"\\taurus", [9801]), (c!"\\gemini", [9802]), (c!"\\cancer", [9803]), (c!"\\leo", [9804]), (c!"\\virgo", [9805]), (c!"\\libra", [9806]),
  (c!"\\scorpio", [9807]), (c!"\\sagittarius", [9808]), (c!"\\capricornus", [9809]), (c!"\\aquarius", [9810]), (c!"\\pisces", [9811]), (c!"\\ding{171}", [9824]),
  (c!"\\ding{168}", [9827]), (c!"\\ding{170}", [9829]), (c!"\\ding{169}", [9830]), (c!"\\eighthnote", [9834]), (c!"\\ding{33}", [9985]), (c!"\\ding{34}", [9986]),
  (c!"\\ding{35}", [9987]), (c!"\\ding{36}", [9988]), (c!"\\ding{38}", [9990]), (c!"\\ding{39}", [9991]), (c!"\\ding{40}", [9992]), (c!"\\ding{41}", [9993]),
  (c!"\\ding{44}", [9996]), (c!"\\ding{45}", [9997]), (c!"\\ding{46}", [9998]), (c!"\\ding{47}", [9999]), (c!"\\ding{48}", [10000]), (c!"\\ding{49}", [10001]),
  (c!"\\ding{50}", [10002]), (c!"\\ding{51}", [10003]), (c!"\\ding{52}", [10004]), (c!"\\ding{53}", [10005]), (c!"\\ding{54}", [10006]), (c!"\\ding{55}", [10007]),
  (c!"\\ding{56}", [10008]), (c!"\\ding{57}", [10009]), (c!"\\ding{58}", [10010]), (c!"\\ding{59}", [10011]), (c!"\\ding{60}", [10012]), (c!"\\ding{61}", [10013]),
  (c!"\\ding{62}", [10014]), (c!"\\ding{63}", [10015]), (c!"\\ding{64}", [10016]), (c!"\\ding{65}", [10017]), (c!"\\ding{66}", [10018]), (c!"\\ding{67}", [10019]),
  (c!"\\ding{68}", [10020]), (c!"\\ding{69}", [10021]), (c!"\\ding{70}", [10022]), (c!"\\ding{71}", [10023]), (c!"\\ding{74}", [10026]), (c!"\\ding{75}", [10027]),
  (c!"\\ding{76}", [10028]), (c!"\\ding{77}", [10029]), (c!"\\ding{78}", [10030]), (c!"\\ding{79}", [10031]), (c!"\\ding{80}", [10032]), (c!"\\ding{81}", [10033]),
  (c!"\\ding{82}", [10034]), (c!"\\ding{83}", [10035]), (c!"\\ding{84}", [10036]), (c!"\\ding{85}", [10037]), (c!"\\ding{86}", [10038]), (c!"\\ding{87}", [10039]),
  (c!"\\ding{88}", [10040]), (c!"\\ding{89}", [10041]), (c!"\\ding{90}", [10042]), (c!"\\ding{91}", [10043]), (c!"\\ding{92}", [10044]), (c!"\\ding{93}", [10045]),
  (c!"\\ding{94}", [10046]), (c!"\\ding{95}", [10047]), (c!"\\ding{96}", [10048]), (c!"\\ding{97}", [10049]), (c!"\\ding{98}", [10050]), (c!"\\ding{99}", [10051])]

/-- _latex2unicode_map.py, entries 1921 to 2040. -/
def entries16 : List (Str × List Nat) := [
  (c!"\\ding{100}", [10052]), (c!"\\ding{101}", [10053]), (c!"\\ding{102}", [10054]), (c!"\\ding{103}", [10055]), (c!"\\ding{104}", [10056]), (c!"\\ding{105}", [10057]),
  (c!"\\ding{106}", [10058]), (c!"\\ding{107}", [10059]), (c!"\\ding{109}", [10061]), (c!"\\ding{111}", [10063]), (c!"\\ding{112}", [10064]), (c!"\\ding{113}", [10065]),
  (c!"\\ding{114}", [10066]), (c!"\\ding{118}", [10070]), (c!"\\ding{120}", [10072]), (c!"\\ding{121}", [10073]), (c!"\\ding{122}", [10074]), (c!"\\ding{123}", [10075]),
  (c!"\\ding{124}", [10076]), (c!"\\ding{125}", [10077]), (c!"\\ding{126}", [10078]), (c!"\\ding{161}", [10081]), (c!"\\ding{162}", [10082]), (c!"\\ding{163}", [10083]),
  (c!"\\ding{164}", [10084]), (c!"\\ding{165}", [10085]), (c!"\\ding{166}", [10086]), (c!"\\ding{167}", [10087]), (c!"\\ding{182}", [10102]), (c!"\\ding{183}", [10103]),
  (c!"\\ding{184}", [10104]), (c!"\\ding{185}", [10105]), (c!"\\ding{186}", [10106]), (c!"\\ding{187}", [10107]), (c!"\\ding{188}", [10108]), (c!"\\ding{189}", [10109]),
  (c!"\\ding{190}", [10110]), (c!"\\ding{191}", [10111]), (c!"\\ding{192}", [10112]), (c!"\\ding{193}", [10113]), (c!"\\ding{194}", [10114]), (c!"\\ding{195}", [10115]),
  (c!"\\ding{196}", [10116]), (c!"\\ding{197}", [10117]), (c!"\\ding{198}", [10118]), (c!"\\ding{199}", [10119]), (c!"\\ding{200}", [10120]), (c!"\\ding{201}", [10121]),
  (c!"\\ding{202}", [10122]), (c!"\\ding{203}", [10123]), (c!"\\ding{204}", [10124]), (c!"\\ding{205}", [10125]), (c!"\\ding{206}", [10126]), (c!"\\ding{207}", [10127]),
  (c!"\\ding{208}", [10128]), (c!"\\ding{209}", [10129]), (c!"\\ding{210}", [10130]), (c!"\\ding{211}", [10131]), (c!"\\ding{212}", [10132]), (c!"\\ding{216}", [10136]),
  (c!"\\ding{217}", [10137]), (c!"\\ding{218}", [10138]), (c!"\\ding{219}", [10139]), (c!"\\ding{220}", [10140]), (c!"\\ding{221}", [10141]), (c!"\\ding{222}", [10142]),
  (c!"\\ding{223}", [10143]), (c!"\\ding{224}", [10144]), (c!"\\ding{225}", [10145]), (c!"\\ding{226}", [10146]), (c!"\\ding{227}", [10147]), (c!"\\ding{228}", [10148]),
  (c!"\\ding{229}", [10149]), (c!"\\ding{230}", [10150]), (c!"\\ding{231}", [10151]), (c!"\\ding{232}", [10152]), (c!"\\ding{233}", [10153]), (c!"\\ding{234}", [10154]),
  (c!"\\ding{235}", [10155]), (c!"\\ding{236}", [10156]), (c!"\\ding{237}", [10157]), (c!"\\ding{238}", [10158]), (c!"\\ding{239}", [10159]), (c!"\\ding{241}", [10161]),
  (c!"\\ding{242}", [10162]), (c!"\\ding{243}", [10163]), (c!"\\ding{244}", [10164]), (c!"\\ding{245}", [10165]), (c!"\\ding{246}", [10166]), (c!"\\ding{247}", [10167]),
  (c!"\\ding{248}", [10168]), (c!"\\ding{249}", [10169]), (c!"\\ding{250}", [10170]), (c!"\\ding{251}", [10171]), (c!"\\ding{252}", [10172]), (c!"\\ding{253}", [10173]),
  (c!"\\ding{254}", [10174]), (c!"\\UpArrowBar", [10514]), (c!"\\DownArrowBar", [10515]), (c!"\\LeftRightVector", [10574]), (c!"\\RightUpDownVector", [10575]), (c!"\\DownLeftRightVector", [10576]),
  (c!"\\LeftUpDownVector", [10577]), (c!"\\LeftVectorBar", [10578]), (c!"\\RightVectorBar", [10579]), (c!"\\RightUpVectorBar", [10580]), (c!"\\RightDownVectorBar", [10581]), (c!"\\DownLeftVectorBar", [10582]),
  (c!"\\DownRightVectorBar", [10583]), (c!"\\LeftUpVectorBar", [10584]), (c!"\\LeftDownVectorBar", [10585]), (c!"\\LeftTeeVector", [10586]), (c!"\\RightTeeVector", [10587]), (c!"\\RightUpTeeVector", [10588]),
  (c!"\\RightDownTeeVector", [10589]), (c!"\\DownLeftTeeVector", [10590]), (c!"\\DownRightTeeVector", [10591]), (c!"\\LeftUpTeeVector", [10592]), (c!"\\LeftDownTeeVector", [10593]), (c!"\\UpEquilibrium", [10606])]

/-- _latex2unicode_map.py, entries 2041 to 2160. -/
def entries17 : List (Str × List Nat) := [
  (c!"\\ReverseUpEquilibrium", [10607]), (c!"\\RoundImplies", [10608]), (c!"\\Angle", [10652]), (c!"\\LeftTriangleBar", [10703]), (c!"\\RightTriangleBar", [10704]), (c!"\\RuleDelayed", [10740]),
  (c!"\\perspcorrespond", [10846]), (c!"\\Equal", [10869]), (c!"\\Pisymbol{ppi020}{117}", [10909]), (c!"\\Pisymbol{ppi020}{105}", [10910]), (c!"\\NestedLessLess", [10913]), (c!"\\NestedGreaterGreater", [10914]),
  (c!"\\openbracketleft", [12314]), (c!"\\openbracketright", [12315]), (c!"\\mathmit{A}", [119860]), (c!"\\mathmit{B}", [119861]), (c!"\\mathmit{C}", [119862]), (c!"\\mathmit{D}", [119863]),
  (c!"\\mathmit{E}", [119864]), (c!"\\mathmit{F}", [119865]), (c!"\\mathmit{G}", [119866]), (c!"\\mathmit{H}", [119867]), (c!"\\mathmit{I}", [119868]), (c!"\\mathmit{J}", [119869]),
  (c!"\\mathmit{K}", [119870]), (c!"\\mathmit{L}", [119871]), (c!"\\mathmit{M}", [119872]), (c!"\\mathmit{N}", [119873]), (c!"\\mathmit{O}", [119874]), (c!"\\mathmit{P}", [119875]),
  (c!"\\mathmit{Q}", [119876]), (c!"\\mathmit{R}", [119877]), (c!"\\mathmit{S}", [119878]), (c!"\\mathmit{T}", [119879]), (c!"\\mathmit{U}", [119880]), (c!"\\mathmit{V}", [119881]),
  (c!"\\mathmit{W}", [119882]), (c!"\\mathmit{X}", [119883]), (c!"\\mathmit{Y}", [119884]), (c!"\\mathmit{Z}", [119885]), (c!"\\mathmit{a}", [119886]), (c!"\\mathmit{b}", [119887]),
  (c!"\\mathmit{c}", [119888]), (c!"\\mathmit{d}", [119889]), (c!"\\mathmit{e}", [119890]), (c!"\\mathmit{f}", [119891]), (c!"\\mathmit{g}", [119892]), (c!"\\mathmit{i}", [119894]),
  (c!"\\mathmit{j}", [119895]), (c!"\\mathmit{k}", [119896]), (c!"\\mathmit{l}", [119897]), (c!"\\mathmit{m}", [119898]), (c!"\\mathmit{n}", [119899]), (c!"\\mathmit{o}", [119900]),
  (c!"\\mathmit{p}", [119901]), (c!"\\mathmit{q}", [119902]), (c!"\\mathmit{r}", [119903]), (c!"\\mathmit{s}", [119904]), (c!"\\mathmit{t}", [119905]), (c!"\\mathmit{u}", [119906]),
  (c!"\\mathmit{v}", [119907]), (c!"\\mathmit{w}", [119908]), (c!"\\mathmit{x}", [119909]), (c!"\\mathmit{y}", [119910]), (c!"\\mathmit{z}", [119911]), (c!"\\mathbit{A}", [119912]),
  (c!"\\mathbit{B}", [119913]), (c!"\\mathbit{C}", [119914]), (c!"\\mathbit{D}", [119915]), (c!"\\mathbit{E}", [119916]), (c!"\\mathbit{F}", [119917]), (c!"\\mathbit{G}", [119918]),
  (c!"\\mathbit{H}", [119919]), (c!"\\mathbit{I}", [119920]), (c!"\\mathbit{J}", [119921]), (c!"\\mathbit{K}", [119922]), (c!"\\mathbit{L}", [119923]), (c!"\\mathbit{M}", [119924]),
  (c!"\\mathbit{N}", [119925]), (c!"\\mathbit{O}", [119926]), (c!"\\mathbit{P}", [119927]), (c!"\\mathbit{Q}", [119928]), (c!"\\mathbit{R}", [119929]), (c!"\\mathbit{S}", [119930]),
  (c!"\\mathbit{T}", [119931]), (c!"\\mathbit{U}", [119932]), (c!"\\mathbit{V}", [119933]), (c!"\\mathbit{W}", [119934]), (c!"\\mathbit{X}", [119935]), (c!"\\mathbit{Y}", [119936]),
  (c!"\\mathbit{Z}", [119937]), (c!"\\mathbit{a}", [119938]), (c!"\\mathbit{b}", [119939]), (c!"\\mathbit{c}", [119940]), (c!"\\mathbit{d}", [119941]), (c!"\\mathbit{e}", [119942]),
  (c!"\\mathbit{f}", [119943]), (c!"\\mathbit{g}", [119944]), (c!"\\mathbit{h}", [119945]), (c!"\\mathbit{i}", [119946]), (c!"\\mathbit{j}", [119947]), (c!"\\mathbit{k}", [119948]),
  (c!"\\mathbit{l}", [119949]), (c!"\\mathbit{m}", [119950]), (c!"\\mathbit{n}", [119951]), (c!"\\mathbit{o}", [119952]), (c!"\\mathbit{p}", [119953]), (c!"\\mathbit{q}", [119954]),
  (c!"\\mathbit{r}", [119955]), (c!"\\mathbit{s}", [119956]), (c!"\\mathbit{t}", [119957]), (c!"\\mathbit{u}", [119958]), (c!"\\mathbit{v}", [119959]), (c!"\\mathbit{w}", [119960]),
  (c!"\\mathbit{x}", [119961]), (c!"\\mathbit{y}", [119962]), (c!"\\mathbit{z}", [119963]), (c!"\\mathbcal{A}", [120016]), (c!"\\mathbcal{B}", [120017]), (c!"\\mathbcal{C}", [120018])]

/-- _latex2unicode_map.py, entries 2161 to 2280. -/
def entries18 : List (Str × List Nat) := [
  (c!"\\mathbcal{D}", [120019]), (c!"\\mathbcal{E}", [120020]), (c!"\\mathbcal{F}", [120021]), (c!"\\mathbcal{G}", [120022]), (c!"\\mathbcal{H}", [120023]), (c!"\\mathbcal{I}", [120024]),
  (c!"\\mathbcal{J}", [120025]), (c!"\\mathbcal{K}", [120026]), (c!"\\mathbcal{L}", [120027]), (c!"\\mathbcal{M}", [120028]), (c!"\\mathbcal{N}", [120029]), (c!"\\mathbcal{O}", [120030]),
  (c!"\\mathbcal{P}", [120031]), (c!"\\mathbcal{Q}", [120032]), (c!"\\mathbcal{R}", [120033]), (c!"\\mathbcal{S}", [120034]), (c!"\\mathbcal{T}", [120035]), (c!"\\mathbcal{U}", [120036]),
  (c!"\\mathbcal{V}", [120037]), (c!"\\mathbcal{W}", [120038]), (c!"\\mathbcal{X}", [120039]), (c!"\\mathbcal{Y}", [120040]), (c!"\\mathbcal{Z}", [120041]), (c!"\\mathbcal{a}", [120042]),
  (c!"\\mathbcal{b}", [120043]), (c!"\\mathbcal{c}", [120044]), (c!"\\mathbcal{d}", [120045]), (c!"\\mathbcal{e}", [120046]), (c!"\\mathbcal{f}", [120047]), (c!"\\mathbcal{g}", [120048]),
  (c!"\\mathbcal{h}", [120049]), (c!"\\mathbcal{i}", [120050]), (c!"\\mathbcal{j}", [120051]), (c!"\\mathbcal{k}", [120052]), (c!"\\mathbcal{l}", [120053]), (c!"\\mathbcal{m}", [120054]),
  (c!"\\mathbcal{n}", [120055]), (c!"\\mathbcal{o}", [120056]), (c!"\\mathbcal{p}", [120057]), (c!"\\mathbcal{q}", [120058]), (c!"\\mathbcal{r}", [120059]), (c!"\\mathbcal{s}", [120060]),
  (c!"\\mathbcal{t}", [120061]), (c!"\\mathbcal{u}", [120062]), (c!"\\mathbcal{v}", [120063]), (c!"\\mathbcal{w}", [120064]), (c!"\\mathbcal{x}", [120065]), (c!"\\mathbcal{y}", [120066]),
  (c!"\\mathbcal{z}", [120067]), (c!"\\mathbfrak{A}", [120172]), (c!"\\mathbfrak{B}", [120173]), (c!"\\mathbfrak{C}", [120174]), (c!"\\mathbfrak{D}", [120175]), (c!"\\mathbfrak{E}", [120176]),
  (c!"\\mathbfrak{F}", [120177]), (c!"\\mathbfrak{G}", [120178]), (c!"\\mathbfrak{H}", [120179]), (c!"\\mathbfrak{I}", [120180]), (c!"\\mathbfrak{J}", [120181]), (c!"\\mathbfrak{K}", [120182]),
  (c!"\\mathbfrak{L}", [120183]), (c!"\\mathbfrak{M}", [120184]), (c!"\\mathbfrak{N}", [120185]), (c!"\\mathbfrak{O}", [120186]), (c!"\\mathbfrak{P}", [120187]), (c!"\\mathbfrak{Q}", [120188]),
  (c!"\\mathbfrak{R}", [120189]), (c!"\\mathbfrak{S}", [120190]), (c!"\\mathbfrak{T}", [120191]), (c!"\\mathbfrak{U}", [120192]), (c!"\\mathbfrak{V}", [120193]), (c!"\\mathbfrak{W}", [120194]),
  (c!"\\mathbfrak{X}", [120195]), (c!"\\mathbfrak{Y}", [120196]), (c!"\\mathbfrak{Z}", [120197]), (c!"\\mathbfrak{a}", [120198]), (c!"\\mathbfrak{b}", [120199]), (c!"\\mathbfrak{c}", [120200]),
  (c!"\\mathbfrak{d}", [120201]), (c!"\\mathbfrak{e}", [120202]), (c!"\\mathbfrak{f}", [120203]), (c!"\\mathbfrak{g}", [120204]), (c!"\\mathbfrak{h}", [120205]), (c!"\\mathbfrak{i}", [120206]),
  (c!"\\mathbfrak{j}", [120207]), (c!"\\mathbfrak{k}", [120208]), (c!"\\mathbfrak{l}", [120209]), (c!"\\mathbfrak{m}", [120210]), (c!"\\mathbfrak{n}", [120211]), (c!"\\mathbfrak{o}", [120212]),
  (c!"\\mathbfrak{p}", [120213]), (c!"\\mathbfrak{q}", [120214]), (c!"\\mathbfrak{r}", [120215]), (c!"\\mathbfrak{s}", [120216]), (c!"\\mathbfrak{t}", [120217]), (c!"\\mathbfrak{u}", [120218]),
  (c!"\\mathbfrak{v}", [120219]), (c!"\\mathbfrak{w}", [120220]), (c!"\\mathbfrak{x}", [120221]), (c!"\\mathbfrak{y}", [120222]), (c!"\\mathbfrak{z}", [120223]), (c!"\\mathsfbf{A}", [120276]),
  (c!"\\mathsfbf{B}", [120277]), (c!"\\mathsfbf{C}", [120278]), (c!"\\mathsfbf{D}", [120279]), (c!"\\mathsfbf{E}", [120280]), (c!"\\mathsfbf{F}", [120281]), (c!"\\mathsfbf{G}", [120282]),
  (c!"\\mathsfbf{H}", [120283]), (c!"\\mathsfbf{I}", [120284]), (c!"\\mathsfbf{J}", [120285]), (c!"\\mathsfbf{K}", [120286]), (c!"\\mathsfbf{L}", [120287]), (c!"\\mathsfbf{M}", [120288]),
  (c!"\\mathsfbf{N}", [120289]), (c!"\\mathsfbf{O}", [120290]), (c!"\\mathsfbf{P}", [120291]), (c!"\\mathsfbf{Q}", [120292]), (c!"\\mathsfbf{R}", [120293]), (c!"\\mathsfbf{S}", [120294])]

/-- _latex2unicode_map.py, entries 2281 to 2400. -/
def entries19 : List (Str × List Nat) := [
  (c!"\\mathsfbf{T}", [120295]), (c!"\\mathsfbf{U}", [120296]), (c!"\\mathsfbf{V}", [120297]), (c!"\\mathsfbf{W}", [120298]), (c!"\\mathsfbf{X}", [120299]), (c!"\\mathsfbf{Y}", [120300]),
  (c!"\\mathsfbf{Z}", [120301]), (c!"\\mathsfbf{a}", [120302]), (c!"\\mathsfbf{b}", [120303]), (c!"\\mathsfbf{c}", [120304]), (c!"\\mathsfbf{d}", [120305]), (c!"\\mathsfbf{e}", [120306]),
  (c!"\\mathsfbf{f}", [120307]), (c!"\\mathsfbf{g}", [120308]), (c!"\\mathsfbf{h}", [120309]), (c!"\\mathsfbf{i}", [120310]), (c!"\\mathsfbf{j}", [120311]), (c!"\\mathsfbf{k}", [120312]),
  (c!"\\mathsfbf{l}", [120313]), (c!"\\mathsfbf{m}", [120314]), (c!"\\mathsfbf{n}", [120315]), (c!"\\mathsfbf{o}", [120316]), (c!"\\mathsfbf{p}", [120317]), (c!"\\mathsfbf{q}", [120318]),
  (c!"\\mathsfbf{r}", [120319]), (c!"\\mathsfbf{s}", [120320]), (c!"\\mathsfbf{t}", [120321]), (c!"\\mathsfbf{u}", [120322]), (c!"\\mathsfbf{v}", [120323]), (c!"\\mathsfbf{w}", [120324]),
  (c!"\\mathsfbf{x}", [120325]), (c!"\\mathsfbf{y}", [120326]), (c!"\\mathsfbf{z}", [120327]), (c!"\\mathsfsl{A}", [120328]), (c!"\\mathsfsl{B}", [120329]), (c!"\\mathsfsl{C}", [120330]),
  (c!"\\mathsfsl{D}", [120331]), (c!"\\mathsfsl{E}", [120332]), (c!"\\mathsfsl{F}", [120333]), (c!"\\mathsfsl{G}", [120334]), (c!"\\mathsfsl{H}", [120335]), (c!"\\mathsfsl{I}", [120336]),
  (c!"\\mathsfsl{J}", [120337]), (c!"\\mathsfsl{K}", [120338]), (c!"\\mathsfsl{L}", [120339]), (c!"\\mathsfsl{M}", [120340]), (c!"\\mathsfsl{N}", [120341]), (c!"\\mathsfsl{O}", [120342]),
  (c!"\\mathsfsl{P}", [120343]), (c!"\\mathsfsl{Q}", [120344]), (c!"\\mathsfsl{R}", [120345]), (c!"\\mathsfsl{S}", [120346]), (c!"\\mathsfsl{T}", [120347]), (c!"\\mathsfsl{U}", [120348]),
  (c!"\\mathsfsl{V}", [120349]), (c!"\\mathsfsl{W}", [120350]), (c!"\\mathsfsl{X}", [120351]), (c!"\\mathsfsl{Y}", [120352]), (c!"\\mathsfsl{Z}", [120353]), (c!"\\mathsfsl{a}", [120354]),
  (c!"\\mathsfsl{b}", [120355]), (c!"\\mathsfsl{c}", [120356]), (c!"\\mathsfsl{d}", [120357]), (c!"\\mathsfsl{e}", [120358]), (c!"\\mathsfsl{f}", [120359]), (c!"\\mathsfsl{g}", [120360]),
  (c!"\\mathsfsl{h}", [120361]), (c!"\\mathsfsl{i}", [120362]), (c!"\\mathsfsl{j}", [120363]), (c!"\\mathsfsl{k}", [120364]), (c!"\\mathsfsl{l}", [120365]), (c!"\\mathsfsl{m}", [120366]),
  (c!"\\mathsfsl{n}", [120367]), (c!"\\mathsfsl{o}", [120368]), (c!"\\mathsfsl{p}", [120369]), (c!"\\mathsfsl{q}", [120370]), (c!"\\mathsfsl{r}", [120371]), (c!"\\mathsfsl{s}", [120372]),
  (c!"\\mathsfsl{t}", [120373]), (c!"\\mathsfsl{u}", [120374]), (c!"\\mathsfsl{v}", [120375]), (c!"\\mathsfsl{w}", [120376]), (c!"\\mathsfsl{x}", [120377]), (c!"\\mathsfsl{y}", [120378]),
  (c!"\\mathsfsl{z}", [120379]), (c!"\\mathsfbfsl{A}", [120380]), (c!"\\mathsfbfsl{B}", [120381]), (c!"\\mathsfbfsl{C}", [120382]), (c!"\\mathsfbfsl{D}", [120383]), (c!"\\mathsfbfsl{E}", [120384]),
  (c!"\\mathsfbfsl{F}", [120385]), (c!"\\mathsfbfsl{G}", [120386]), (c!"\\mathsfbfsl{H}", [120387]), (c!"\\mathsfbfsl{I}", [120388]), (c!"\\mathsfbfsl{J}", [120389]), (c!"\\mathsfbfsl{K}", [120390]),
  (c!"\\mathsfbfsl{L}", [120391]), (c!"\\mathsfbfsl{M}", [120392]), (c!"\\mathsfbfsl{N}", [120393]), (c!"\\mathsfbfsl{O}", [120394]), (c!"\\mathsfbfsl{P}", [120395]), (c!"\\mathsfbfsl{Q}", [120396]),
  (c!"\\mathsfbfsl{R}", [120397]), (c!"\\mathsfbfsl{S}", [120398]), (c!"\\mathsfbfsl{T}", [120399]), (c!"\\mathsfbfsl{U}", [120400]), (c!"\\mathsfbfsl{V}", [120401]), (c!"\\mathsfbfsl{W}", [120402]),
  (c!"\\mathsfbfsl{X}", [120403]), (c!"\\mathsfbfsl{Y}", [120404]), (c!"\\mathsfbfsl{Z}", [120405]), (c!"\\mathsfbfsl{a}", [120406]), (c!"\\mathsfbfsl{b}", [120407]), (c!"\\mathsfbfsl{c}", [120408]),
  (c!"\\mathsfbfsl{d}", [120409]), (c!"\\mathsfbfsl{e}", [120410]), (c!"\\mathsfbfsl{f}", [120411]), (c!"\\mathsfbfsl{g}", [120412]), (c!"\\mathsfbfsl{h}", [120413]), (c!"\\mathsfbfsl{i}", [120414])]

/-- _latex2unicode_map.py, entries 2401 to 2520. -/
def entries20 : List (Str × List Nat) := [
  (c!"\\mathsfbfsl{j}", [120415]), (c!"\\mathsfbfsl{k}", [120416]), (c!"\\mathsfbfsl{l}", [120417]), (c!"\\mathsfbfsl{m}", [120418]), (c!"\\mathsfbfsl{n}", [120419]), (c!"\\mathsfbfsl{o}", [120420]),
  (c!"\\mathsfbfsl{p}", [120421]), (c!"\\mathsfbfsl{q}", [120422]), (c!"\\mathsfbfsl{r}", [120423]), (c!"\\mathsfbfsl{s}", [120424]), (c!"\\mathsfbfsl{t}", [120425]), (c!"\\mathsfbfsl{u}", [120426]),
  (c!"\\mathsfbfsl{v}", [120427]), (c!"\\mathsfbfsl{w}", [120428]), (c!"\\mathsfbfsl{x}", [120429]), (c!"\\mathsfbfsl{y}", [120430]), (c!"\\mathsfbfsl{z}", [120431]), (c!"\\mathbf{\\Alpha}", [120488]),
  (c!"\\mathbf{\\Beta}", [120489]), (c!"\\mathbf{\\Gamma}", [120490]), (c!"\\mathbf{\\Delta}", [120491]), (c!"\\mathbf{\\Epsilon}", [120492]), (c!"\\mathbf{\\Zeta}", [120493]), (c!"\\mathbf{\\Eta}", [120494]),
  (c!"\\mathbf{\\Theta}", [120495]), (c!"\\mathbf{\\Iota}", [120496]), (c!"\\mathbf{\\Kappa}", [120497]), (c!"\\mathbf{\\Lambda}", [120498]), (c!"\\mathbf{\\Xi}", [120501]), (c!"\\mathbf{\\Pi}", [120503]),
  (c!"\\mathbf{\\Rho}", [120504]), (c!"\\mathbf{\\vartheta}", [120505]), (c!"\\mathbf{\\Sigma}", [120506]), (c!"\\mathbf{\\Tau}", [120507]), (c!"\\mathbf{\\Upsilon}", [120508]), (c!"\\mathbf{\\Phi}", [120509]),
  (c!"\\mathbf{\\Chi}", [120510]), (c!"\\mathbf{\\Psi}", [120511]), (c!"\\mathbf{\\Omega}", [120512]), (c!"\\mathbf{\\nabla}", [120513]), (c!"\\mathbf{\\alpha}", [120514]), (c!"\\mathbf{\\beta}", [120515]),
  (c!"\\mathbf{\\gamma}", [120516]), (c!"\\mathbf{\\delta}", [120517]), (c!"\\mathbf{\\epsilon}", [120518]), (c!"\\mathbf{\\zeta}", [120519]), (c!"\\mathbf{\\eta}", [120520]), (c!"\\mathbf{\\theta}", [120521]),
  (c!"\\mathbf{\\iota}", [120522]), (c!"\\mathbf{\\kappa}", [120523]), (c!"\\mathbf{\\lambda}", [120524]), (c!"\\mathbf{\\mu}", [120525]), (c!"\\mathbf{\\nu}", [120526]), (c!"\\mathbf{\\xi}", [120527]),
  (c!"\\mathbf{\\pi}", [120529]), (c!"\\mathbf{\\rho}", [120530]), (c!"\\mathbf{\\varsigma}", [120531]), (c!"\\mathbf{\\sigma}", [120532]), (c!"\\mathbf{\\tau}", [120533]), (c!"\\mathbf{\\upsilon}", [120534]),
  (c!"\\mathbf{\\phi}", [120535]), (c!"\\mathbf{\\chi}", [120536]), (c!"\\mathbf{\\psi}", [120537]), (c!"\\mathbf{\\omega}", [120538]), (c!"\\mathbf{\\varepsilon}", [120540]), (c!"\\mathbf{\\varkappa}", [120542]),
  (c!"\\mathbf{\\varrho}", [120544]), (c!"\\mathbf{\\varpi}", [120545]), (c!"\\mathmit{\\Alpha}", [120546]), (c!"\\mathmit{\\Beta}", [120547]), (c!"\\mathmit{\\Gamma}", [120548]), (c!"\\mathmit{\\Delta}", [120549]),
  (c!"\\mathmit{\\Epsilon}", [120550]), (c!"\\mathmit{\\Zeta}", [120551]), (c!"\\mathmit{\\Eta}", [120552]), (c!"\\mathmit{\\Theta}", [120553]), (c!"\\mathmit{\\Iota}", [120554]), (c!"\\mathmit{\\Kappa}", [120555]),
  (c!"\\mathmit{\\Lambda}", [120556]), (c!"\\mathmit{\\Xi}", [120559]), (c!"\\mathmit{\\Pi}", [120561]), (c!"\\mathmit{\\Rho}", [120562]), (c!"\\mathmit{\\vartheta}", [120563]), (c!"\\mathmit{\\Sigma}", [120564]),
  (c!"\\mathmit{\\Tau}", [120565]), (c!"\\mathmit{\\Upsilon}", [120566]), (c!"\\mathmit{\\Phi}", [120567]), (c!"\\mathmit{\\Chi}", [120568]), (c!"\\mathmit{\\Psi}", [120569]), (c!"\\mathmit{\\Omega}", [120570]),
  (c!"\\mathmit{\\nabla}", [120571]), (c!"\\mathmit{\\alpha}", [120572]), (c!"\\mathmit{\\beta}", [120573]), (c!"\\mathmit{\\gamma}", [120574]), (c!"\\mathmit{\\delta}", [120575]), (c!"\\mathmit{\\epsilon}", [120576]),
  (c!"\\mathmit{\\zeta}", [120577]), (c!"\\mathmit{\\eta}", [120578]), (c!"\\mathmit{\\theta}", [120579]), (c!"\\mathmit{\\iota}", [120580]), (c!"\\mathmit{\\kappa}", [120581]), (c!"\\mathmit{\\lambda}", [120582]),
  (c!"\\mathmit{\\mu}", [120583]), (c!"\\mathmit{\\nu}", [120584]), (c!"\\mathmit{\\xi}", [120585]), (c!"\\mathmit{\\pi}", [120587]), (c!"\\mathmit{\\rho}", [120588]), (c!"\\mathmit{\\varsigma}", [120589]),
  (c!"\\mathmit{\\sigma}", [120590]), (c!"\\mathmit{\\tau}", [120591]), (c!"\\mathmit{\\upsilon}", [120592]), (c!"\\mathmit{\\phi}", [120593]), (c!"\\mathmit{\\chi}", [120594]), (c!"\\mathmit{\\psi}", [120595]),
  (c!"\\mathmit{\\omega}", [120596]), (c!"\\mathmit{\\varkappa}", [120600]), (c!"\\mathmit{\\varrho}", [120602]), (c!"\\mathmit{\\varpi}", [120603]), (c!"\\mathbit{\\Alpha}", [120604]), (c!"\\mathbit{\\Beta}", [120605])]

/-- _latex2unicode_map.py, entries 2521 to 2640. -/
def entries21 : List (Str × List Nat) := [
  (c!"\\mathbit{\\Gamma}", [120606]), (c!"\\mathbit{\\Delta}", [120607]), (c!"\\mathbit{\\Epsilon}", [120608]), (c!"\\mathbit{\\Zeta}", [120609]), (c!"\\mathbit{\\Eta}", [120610]), (c!"\\mathbit{\\Theta}", [120611]),
  (c!"\\mathbit{\\Iota}", [120612]), (c!"\\mathbit{\\Kappa}", [120613]), (c!"\\mathbit{\\Lambda}", [120614]), (c!"\\mathbit{\\Xi}", [120617]), (c!"\\mathbit{\\Pi}", [120619]), (c!"\\mathbit{\\Rho}", [120620]),
  (c!"\\mathbit{\\Sigma}", [120622]), (c!"\\mathbit{\\Tau}", [120623]), (c!"\\mathbit{\\Upsilon}", [120624]), (c!"\\mathbit{\\Phi}", [120625]), (c!"\\mathbit{\\Chi}", [120626]), (c!"\\mathbit{\\Psi}", [120627]),
  (c!"\\mathbit{\\Omega}", [120628]), (c!"\\mathbit{\\nabla}", [120629]), (c!"\\mathbit{\\alpha}", [120630]), (c!"\\mathbit{\\beta}", [120631]), (c!"\\mathbit{\\gamma}", [120632]), (c!"\\mathbit{\\delta}", [120633]),
  (c!"\\mathbit{\\epsilon}", [120634]), (c!"\\mathbit{\\zeta}", [120635]), (c!"\\mathbit{\\eta}", [120636]), (c!"\\mathbit{\\theta}", [120637]), (c!"\\mathbit{\\iota}", [120638]), (c!"\\mathbit{\\kappa}", [120639]),
  (c!"\\mathbit{\\lambda}", [120640]), (c!"\\mathbit{\\mu}", [120641]), (c!"\\mathbit{\\nu}", [120642]), (c!"\\mathbit{\\xi}", [120643]), (c!"\\mathbit{\\pi}", [120645]), (c!"\\mathbit{\\rho}", [120646]),
  (c!"\\mathbit{\\varsigma}", [120647]), (c!"\\mathbit{\\sigma}", [120648]), (c!"\\mathbit{\\tau}", [120649]), (c!"\\mathbit{\\upsilon}", [120650]), (c!"\\mathbit{\\phi}", [120651]), (c!"\\mathbit{\\chi}", [120652]),
  (c!"\\mathbit{\\psi}", [120653]), (c!"\\mathbit{\\omega}", [120654]), (c!"\\mathbit{\\vartheta}", [120657]), (c!"\\mathbit{\\varkappa}", [120658]), (c!"\\mathbit{\\varrho}", [120660]), (c!"\\mathbit{\\varpi}", [120661]),
  (c!"\\mathsfbf{\\Alpha}", [120662]), (c!"\\mathsfbf{\\Beta}", [120663]), (c!"\\mathsfbf{\\Gamma}", [120664]), (c!"\\mathsfbf{\\Delta}", [120665]), (c!"\\mathsfbf{\\Epsilon}", [120666]), (c!"\\mathsfbf{\\Zeta}", [120667]),
  (c!"\\mathsfbf{\\Eta}", [120668]), (c!"\\mathsfbf{\\Theta}", [120669]), (c!"\\mathsfbf{\\Iota}", [120670]), (c!"\\mathsfbf{\\Kappa}", [120671]), (c!"\\mathsfbf{\\Lambda}", [120672]), (c!"\\mathsfbf{\\Xi}", [120675]),
  (c!"\\mathsfbf{\\Pi}", [120677]), (c!"\\mathsfbf{\\Rho}", [120678]), (c!"\\mathsfbf{\\vartheta}", [120679]), (c!"\\mathsfbf{\\Sigma}", [120680]), (c!"\\mathsfbf{\\Tau}", [120681]), (c!"\\mathsfbf{\\Upsilon}", [120682]),
  (c!"\\mathsfbf{\\Phi}", [120683]), (c!"\\mathsfbf{\\Chi}", [120684]), (c!"\\mathsfbf{\\Psi}", [120685]), (c!"\\mathsfbf{\\Omega}", [120686]), (c!"\\mathsfbf{\\nabla}", [120687]), (c!"\\mathsfbf{\\alpha}", [120688]),
  (c!"\\mathsfbf{\\beta}", [120689]), (c!"\\mathsfbf{\\gamma}", [120690]), (c!"\\mathsfbf{\\delta}", [120691]), (c!"\\mathsfbf{\\epsilon}", [120692]), (c!"\\mathsfbf{\\zeta}", [120693]), (c!"\\mathsfbf{\\eta}", [120694]),
  (c!"\\mathsfbf{\\theta}", [120695]), (c!"\\mathsfbf{\\iota}", [120696]), (c!"\\mathsfbf{\\kappa}", [120697]), (c!"\\mathsfbf{\\lambda}", [120698]), (c!"\\mathsfbf{\\mu}", [120699]), (c!"\\mathsfbf{\\nu}", [120700]),
  (c!"\\mathsfbf{\\xi}", [120701]), (c!"\\mathsfbf{\\pi}", [120703]), (c!"\\mathsfbf{\\rho}", [120704]), (c!"\\mathsfbf{\\varsigma}", [120705]), (c!"\\mathsfbf{\\sigma}", [120706]), (c!"\\mathsfbf{\\tau}", [120707]),
  (c!"\\mathsfbf{\\upsilon}", [120708]), (c!"\\mathsfbf{\\phi}", [120709]), (c!"\\mathsfbf{\\chi}", [120710]), (c!"\\mathsfbf{\\psi}", [120711]), (c!"\\mathsfbf{\\omega}", [120712]), (c!"\\mathsfbf{\\varepsilon}", [120714]),
  (c!"\\mathsfbf{\\varkappa}", [120716]), (c!"\\mathsfbf{\\varrho}", [120718]), (c!"\\mathsfbf{\\varpi}", [120719]), (c!"\\mathsfbfsl{\\Alpha}", [120720]), (c!"\\mathsfbfsl{\\Beta}", [120721]), (c!"\\mathsfbfsl{\\Gamma}", [120722]),
  (c!"\\mathsfbfsl{\\Delta}", [120723]), (c!"\\mathsfbfsl{\\Epsilon}", [120724]), (c!"\\mathsfbfsl{\\Zeta}", [120725]), (c!"\\mathsfbfsl{\\Eta}", [120726]), (c!"\\mathsfbfsl{\\vartheta}", [120727]), (c!"\\mathsfbfsl{\\Iota}", [120728]),
  (c!"\\mathsfbfsl{\\Kappa}", [120729]), (c!"\\mathsfbfsl{\\Lambda}", [120730]), (c!"\\mathsfbfsl{\\Xi}", [120733]), (c!"\\mathsfbfsl{\\Pi}", [120735]), (c!"\\mathsfbfsl{\\Rho}", [120736]), (c!"\\mathsfbfsl{\\Sigma}", [120738]),
  (c!"\\mathsfbfsl{\\Tau}", [120739]), (c!"\\mathsfbfsl{\\Upsilon}", [120740]), (c!"\\mathsfbfsl{\\Phi}", [120741]), (c!"\\mathsfbfsl{\\Chi}", [120742]), (c!"\\mathsfbfsl{\\Psi}", [120743]), (c!"\\mathsfbfsl{\\Omega}", [120744])]

/-- _latex2unicode_map.py, entries 2641 to 2677. -/
def entries22 : List (Str × List Nat) := [
  (c!"\\mathsfbfsl{\\nabla}", [120745]), (c!"\\mathsfbfsl{\\alpha}", [120746]), (c!"\\mathsfbfsl{\\beta}", [120747]), (c!"\\mathsfbfsl{\\gamma}", [120748]), (c!"\\mathsfbfsl{\\delta}", [120749]), (c!"\\mathsfbfsl{\\epsilon}", [120750]),
  (c!"\\mathsfbfsl{\\zeta}", [120751]), (c!"\\mathsfbfsl{\\eta}", [120752]), (c!"\\mathsfbfsl{\\iota}", [120754]), (c!"\\mathsfbfsl{\\kappa}", [120755]), (c!"\\mathsfbfsl{\\lambda}", [120756]), (c!"\\mathsfbfsl{\\mu}", [120757]),
  (c!"\\mathsfbfsl{\\nu}", [120758]), (c!"\\mathsfbfsl{\\xi}", [120759]), (c!"\\mathsfbfsl{\\pi}", [120761]), (c!"\\mathsfbfsl{\\rho}", [120762]), (c!"\\mathsfbfsl{\\varsigma}", [120763]), (c!"\\mathsfbfsl{\\sigma}", [120764]),
  (c!"\\mathsfbfsl{\\tau}", [120765]), (c!"\\mathsfbfsl{\\upsilon}", [120766]), (c!"\\mathsfbfsl{\\phi}", [120767]), (c!"\\mathsfbfsl{\\chi}", [120768]), (c!"\\mathsfbfsl{\\psi}", [120769]), (c!"\\mathsfbfsl{\\omega}", [120770]),
  (c!"\\mathsfbfsl{\\varkappa}", [120774]), (c!"\\mathsfbfsl{\\varrho}", [120776]), (c!"\\mathsfbfsl{\\varpi}", [120777]), (c!"\\mathsfbf{0}", [120812]), (c!"\\mathsfbf{1}", [120813]), (c!"\\mathsfbf{2}", [120814]),
  (c!"\\mathsfbf{3}", [120815]), (c!"\\mathsfbf{4}", [120816]), (c!"\\mathsfbf{5}", [120817]), (c!"\\mathsfbf{6}", [120818]), (c!"\\mathsfbf{7}", [120819]), (c!"\\mathsfbf{8}", [120820]),
  (c!"\\mathsfbf{9}", [120821])]

/-- `latex2unicode`. -/
def entries : List (Str × List Nat) :=
  entries0 ++ entries1 ++ entries2 ++ entries3 ++ entries4 ++ entries5 ++ entries6 ++ entries7 ++ entries8 ++ entries9 ++ entries10 ++ entries11 ++ entries12 ++ entries13 ++ entries14 ++ entries15 ++ entries16 ++ entries17 ++ entries18 ++ entries19 ++ entries20 ++ entries21 ++ entries22

end L2J.Sym
