/-!
# The names of the fovea patterns

The table of `VideoScreen::load` (AERA/IODevices/video_screen/video_screen.cpp:85-598), entry by entry.
-/
namespace Verif.Screen

/-- `fovea_patterns_` (video_screen.cpp:85-598): the names looked up, in order. -/
def names : List String := [
  "pattern0", "pattern1", "pattern2", "pattern12", "pattern3", "pattern13", "pattern23", "pattern123",
  "pattern4", "pattern14", "pattern24", "pattern124", "pattern34", "pattern134", "pattern234", "pattern1234",
  "pattern5", "pattern15", "pattern25", "pattern125", "pattern35", "pattern135", "pattern235", "pattern1235",
  "pattern45", "pattern145", "pattern245", "pattern1245", "pattern345", "pattern1345", "pattern2345", "pattern12345",
  "pattern6", "pattern16", "pattern26", "pattern126", "pattern36", "pattern136", "pattern236", "pattern1236",
  "pattern46", "pattern146", "pattern246", "pattern1246", "pattern346", "pattern1346", "pattern2346", "pattern12346",
  "pattern56", "pattern156", "pattern256", "pattern1256", "pattern356", "pattern1356", "pattern2356", "pattern12356",
  "pattern456", "pattern1456", "pattern2456", "pattern12456", "pattern3456", "pattern13456", "pattern23456", "pattern123456",
  "pattern7", "pattern17", "pattern27", "pattern127", "pattern37", "pattern137", "pattern237", "pattern1237",
  "pattern47", "pattern147", "pattern247", "pattern1247", "pattern347", "pattern1347", "pattern2347", "pattern12347",
  "pattern57", "pattern157", "pattern257", "pattern1257", "pattern357", "pattern1357", "pattern2357", "pattern12357",
  "pattern457", "pattern1457", "pattern2457", "pattern12457", "pattern3457", "pattern13457", "pattern23457", "pattern123457",
  "pattern67", "pattern167", "pattern267", "pattern1267", "pattern367", "pattern1367", "pattern2367", "pattern12367",
  "pattern467", "pattern1467", "pattern2467", "pattern12467", "pattern3467", "pattern13467", "pattern23467", "pattern123467",
  "pattern567", "pattern1567", "pattern2567", "pattern12567", "pattern3567", "pattern13567", "pattern23567", "pattern123567",
  "pattern4567", "pattern14567", "pattern24567", "pattern124567", "pattern34567", "pattern134567", "pattern234567", "pattern1234567",
  "pattern8", "pattern18", "pattern28", "pattern128", "pattern38", "pattern138", "pattern238", "pattern1238",
  "pattern48", "pattern148", "pattern248", "pattern1248", "pattern348", "pattern1348", "pattern2348", "pattern12348",
  "pattern58", "pattern158", "pattern258", "pattern1258", "pattern358", "pattern1358", "pattern2358", "pattern12358",
  "pattern458", "pattern1458", "pattern2458", "pattern12458", "pattern3458", "pattern13458", "pattern23458", "pattern123458",
  "pattern68", "pattern168", "pattern268", "pattern1268", "pattern368", "pattern1368", "pattern2368", "pattern12368",
  "pattern468", "pattern1468", "pattern2468", "pattern12468", "pattern3468", "pattern13468", "pattern23468", "pattern123468",
  "pattern568", "pattern1568", "pattern2568", "pattern12568", "pattern3568", "pattern13568", "pattern23568", "pattern123568",
  "pattern4568", "pattern14568", "pattern24568", "pattern124568", "pattern34568", "pattern134568", "pattern234568", "pattern1234568",
  "pattern78", "pattern178", "pattern278", "pattern1278", "pattern378", "pattern1378", "pattern2378", "pattern12378",
  "pattern478", "pattern1478", "pattern2478", "pattern12478", "pattern3478", "pattern13478", "pattern23478", "pattern123478",
  "pattern578", "pattern1578", "pattern2578", "pattern12578", "pattern3578", "pattern13578", "pattern23578", "pattern123578",
  "pattern4578", "pattern14578", "pattern24578", "pattern124578", "pattern34578", "pattern134578", "pattern234578", "pattern1234578",
  "pattern678", "pattern1678", "pattern2678", "pattern12678", "pattern3678", "pattern13678", "pattern23678", "pattern123678",
  "pattern4678", "pattern14678", "pattern24678", "pattern124678", "pattern34678", "pattern134678", "pattern234678", "pattern1234678",
  "pattern5678", "pattern15678", "pattern25678", "pattern125678", "pattern35678", "pattern135678", "pattern235678", "pattern1235678",
  "pattern45678", "pattern145678", "pattern245678", "pattern1245678", "pattern345678", "pattern1345678", "pattern2345678", "pattern12345678",
  "pattern9", "pattern19", "pattern29", "pattern129", "pattern39", "pattern139", "pattern239", "pattern1239",
  "pattern49", "pattern149", "pattern249", "pattern1249", "pattern349", "pattern1349", "pattern2349", "pattern12349",
  "pattern59", "pattern159", "pattern259", "pattern1259", "pattern359", "pattern1359", "pattern2359", "pattern12359",
  "pattern459", "pattern1459", "pattern2459", "pattern12459", "pattern3459", "pattern13459", "pattern23459", "pattern123459",
  "pattern69", "pattern169", "pattern269", "pattern1269", "pattern369", "pattern1369", "pattern2369", "pattern12369",
  "pattern469", "pattern1469", "pattern2469", "pattern12469", "pattern3469", "pattern13469", "pattern23469", "pattern123469",
  "pattern569", "pattern1569", "pattern2569", "pattern12569", "pattern3569", "pattern13569", "pattern23569", "pattern123569",
  "pattern4569", "pattern14569", "pattern24569", "pattern124569", "pattern34569", "pattern134569", "pattern234569", "pattern1234569",
  "pattern79", "pattern179", "pattern279", "pattern1279", "pattern379", "pattern1379", "pattern2379", "pattern12379",
  "pattern479", "pattern1479", "pattern2479", "pattern12479", "pattern3479", "pattern13479", "pattern23479", "pattern123479",
  "pattern579", "pattern1579", "pattern2579", "pattern12579", "pattern3579", "pattern13579", "pattern23579", "pattern123579",
  "pattern4579", "pattern14579", "pattern24579", "pattern124579", "pattern34579", "pattern134579", "pattern234579", "pattern1234579",
  "pattern679", "pattern1679", "pattern2679", "pattern12679", "pattern3679", "pattern13679", "pattern23679", "pattern123679",
  "pattern4679", "pattern14679", "pattern24679", "pattern124679", "pattern34679", "pattern134679", "pattern234679", "pattern1234679",
  "pattern5679", "pattern15679", "pattern25679", "pattern125679", "pattern35679", "pattern135679", "pattern235679", "pattern1235679",
  "pattern45679", "pattern145679", "pattern245679", "pattern1245679", "pattern345679", "pattern1345679", "pattern2345679", "pattern12345679",
  "pattern89", "pattern189", "pattern289", "pattern1289", "pattern389", "pattern1389", "pattern2389", "pattern12389",
  "pattern489", "pattern1489", "pattern2489", "pattern12489", "pattern3489", "pattern13489", "pattern23489", "pattern123489",
  "pattern589", "pattern1589", "pattern2589", "pattern12589", "pattern3589", "pattern13589", "pattern23589", "pattern123589",
  "pattern4589", "pattern14589", "pattern24589", "pattern124589", "pattern34589", "pattern134589", "pattern234589", "pattern1234589",
  "pattern689", "pattern1689", "pattern2689", "pattern12689", "pattern3689", "pattern13689", "pattern23689", "pattern123689",
  "pattern4689", "pattern14689", "pattern24689", "pattern124689", "pattern34689", "pattern134689", "pattern234689", "pattern1234689",
  "pattern5689", "pattern15689", "pattern25689", "pattern125689", "pattern35689", "pattern135689", "pattern235689", "pattern1235689",
  "pattern45689", "pattern145689", "pattern245689", "pattern1245689", "pattern345689", "pattern1345689", "pattern2345689", "pattern12345689",
  "pattern789", "pattern1789", "pattern2789", "pattern12789", "pattern3789", "pattern13789", "pattern23789", "pattern123789",
  "pattern4789", "pattern14789", "pattern24789", "pattern124789", "pattern34789", "pattern134789", "pattern234789", "pattern1234789",
  "pattern5789", "pattern15789", "pattern25789", "pattern125789", "pattern35789", "pattern135789", "pattern235789", "pattern1235789",
  "pattern45789", "pattern145789", "pattern245789", "pattern1245789", "pattern345789", "pattern1345789", "pattern2345789", "pattern12345789",
  "pattern6789", "pattern16789", "pattern26789", "pattern126789", "pattern36789", "pattern136789", "pattern236789", "pattern1236789",
  "pattern46789", "pattern146789", "pattern246789", "pattern1246789", "pattern346789", "pattern1346789", "pattern2346789", "pattern12346789",
  "pattern56789", "pattern156789", "pattern256789", "pattern1256789", "pattern356789", "pattern1356789", "pattern2356789", "pattern12356789",
  "pattern456789", "pattern1456789", "pattern2456789", "pattern12456789", "pattern3456789", "pattern13456789", "pattern23456789", "pattern123456789"]

end Verif.Screen
