import Mathlib.Data.Rat.Floor

/-!
# Cell noise

Model of `CqCellNoise`, libs/math/cellnoise.cpp, with its tables. Coordinates are exact numbers instead of floats, and the random numbers
are the decimals of the source.
-/

namespace Verif.Math.Cell

set_option maxRecDepth 100000 in
/-- The first half of `m_PermuteTable`, libs/math/cellnoise.cpp:332-745, in rows of 32. -/
def permRows : List (List Nat) := [
  [672, 625, 458, 751, 272, 757, 218, 1247, 636, 557, 402, 1403, 976, 635, 898, 255,
    192, 985, 178, 91, 1748, 1181, 298, 1481, 440, 523, 1574, 815, 248, 1291, 246, 441],
  [948, 1171, 582, 189, 1184, 1273, 490, 23, 344, 409, 1202, 411, 728, 215, 286, 55,
    460, 927, 1290, 675, 712, 1161, 414, 365, 104, 641, 106, 79, 348, 325, 626, 501],
  [1052, 1327, 738, 1013, 1020, 715, 538, 1069, 1732, 97, 962, 421, 376, 165, 830, 925,
    596, 193, 242, 901, 1672, 221, 454, 1675, 1200, 969, 354, 329, 132, 77, 786, 979],
  [292, 789, 1810, 765, 1504, 503, 726, 87, 1032, 1781, 226, 475, 24, 279, 790, 99,
    708, 9, 1058, 139, 520, 1381, 998, 429, 1192, 707, 694, 341, 1408, 107, 678, 459],
  [780, 717, 306, 1777, 912, 51, 1378, 1121, 1196, 1021, 846, 1361, 96, 1325, 686, 663,
    808, 1995, 886, 453, 736, 389, 938, 229, 1852, 651, 58, 305, 812, 689, 142, 1555],
  [1208, 1299, 362, 1341, 1804, 1449, 1814, 1203, 588, 309, 986, 157, 1368, 343, 342, 101,
    552, 595, 534, 1787, 1444, 1677, 38, 491, 804, 41, 318, 131, 1120, 465, 418, 629],
  [864, 431, 862, 1331, 1068, 239, 258, 1987, 324, 225, 1966, 863, 1016, 1377, 958, 133,
    1544, 413, 1318, 5, 232, 1267, 1258, 779, 544, 31, 778, 75, 1236, 547, 6, 169],
  [1772, 1155, 518, 831, 880, 631, 2030, 1783, 1508, 1509, 814, 1459, 604, 1101, 1962, 397,
    1160, 293, 1230, 267, 484, 893, 394, 127, 1104, 105, 1322, 1131, 1000, 17, 1586, 881],
  [1560, 1721, 670, 1007, 1816, 1185, 1398, 513, 1384, 813, 262, 1659, 180, 891, 26, 197,
    1044, 1241, 1342, 347, 528, 1437, 514, 1737, 724, 555, 838, 1071, 648, 1547, 270, 697],
  [1692, 1427, 346, 59, 176, 1529, 1502, 1315, 204, 665, 110, 1467, 1476, 471, 290, 311,
    568, 1183, 326, 931, 0, 1417, 598, 621, 860, 897, 230, 21, 296, 581, 1382, 1463],
  [992, 245, 666, 1269, 868, 241, 1582, 1091, 256, 353, 918, 677, 936, 767, 878, 1711,
    1512, 449, 126, 1157, 1396, 477, 446, 177, 68, 1225, 906, 585, 1992, 527, 18, 249],
  [444, 1045, 2, 1983, 1520, 61, 954, 867, 100, 179, 1282, 731, 1612, 535, 610, 137,
    244, 265, 442, 395, 1832, 163, 378, 171, 740, 39, 254, 597, 640, 363, 1618, 1877],
  [816, 973, 806, 111, 896, 307, 90, 1665, 1352, 1277, 78, 1617, 1600, 43, 1482, 1775,
    660, 1485, 118, 3, 464, 645, 130, 35, 968, 907, 162, 175, 120, 945, 710, 1811],
  [356, 791, 1522, 187, 12, 1705, 850, 1287, 1980, 565, 562, 1805, 480, 599, 1082, 357,
    1572, 851, 1662, 33, 468, 615, 1354, 747, 488, 297, 1370, 387, 20, 983, 822, 1591],
  [924, 687, 102, 89, 680, 495, 10, 1413, 360, 481, 1362, 1119, 1260, 1633, 374, 1759,
    676, 669, 558, 67, 1220, 1523, 1326, 1035, 1972, 287, 526, 331, 820, 803, 510, 425],
  [1084, 1411, 1858, 1087, 4, 2009, 462, 2039, 652, 1765, 114, 217, 268, 1357, 466, 653,
    656, 549, 398, 1837, 1492, 251, 1374, 69, 1380, 361, 1434, 15, 240, 273, 1498, 1981],
  [1540, 1977, 970, 1263, 784, 1441, 50, 769, 1148, 1029, 914, 1915, 436, 1147, 1410, 1903,
    1284, 1497, 690, 603, 328, 27, 810, 7, 252, 811, 74, 1359, 760, 49, 1666, 953],
  [1460, 1683, 1094, 315, 952, 1785, 62, 1571, 856, 921, 422, 1723, 1240, 29, 798, 567,
    224, 233, 1802, 1187, 1968, 13, 618, 877, 492, 1651, 66, 277, 48, 837, 1138, 1719],
  [1564, 2003, 150, 1525, 80, 497, 1050, 1347, 1812, 609, 1194, 933, 888, 1023, 1638, 1967,
    1108, 705, 754, 195, 396, 733, 966, 433, 136, 1681, 278, 841, 644, 783, 1298, 505],
  [1984, 1301, 390, 1729, 1696, 317, 186, 1123, 752, 435, 202, 987, 536, 93, 1302, 393,
    1216, 71, 1570, 941, 796, 419, 266, 209, 1356, 109, 1206, 853, 1920, 619, 1190, 399],
  [1292, 1229, 782, 367, 1424, 563, 1890, 1921, 64, 1533, 1526, 207, 184, 81, 1198, 2031,
    1320, 1741, 994, 259, 388, 2019, 542, 291, 1272, 1163, 570, 1619, 1324, 1201, 654, 57],
  [1720, 1047, 874, 443, 196, 45, 506, 1543, 1100, 821, 1658, 199, 28, 1735, 206, 613,
    172, 121, 250, 289, 216, 871, 550, 1003, 88, 553, 794, 643, 1632, 1239, 930, 1847],
  [1144, 943, 1238, 345, 448, 445, 770, 1669, 504, 737, 1178, 37, 1528, 95, 322, 2015,
    1684, 1841, 1830, 323, 108, 1779, 1770, 1231, 1056, 543, 1938, 587, 364, 1059, 1610, 681],
  [384, 1667, 426, 1343, 212, 1715, 2010, 569, 1616, 2021, 370, 473, 1116, 1613, 1030, 909,
    612, 805, 1742, 231, 996, 507, 1578, 1689, 52, 617, 1958, 271, 1860, 529, 294, 887],
  [476, 213, 1182, 181, 1252, 1697, 1910, 1025, 1896, 1285, 774, 161, 692, 2025, 1262, 2033,
    392, 151, 194, 859, 1040, 283, 54, 401, 1900, 1067, 1350, 1615, 832, 1685, 70, 1209],
  [472, 1939, 858, 571, 688, 183, 406, 1827, 716, 1887, 622, 1979, 1988, 285, 802, 125,
    1080, 489, 658, 201, 36, 269, 1110, 1863, 1372, 1907, 742, 533, 1248, 1093, 138, 1975],
  [1416, 1813, 430, 1695, 1316, 753, 470, 1603, 768, 865, 122, 1221, 1448, 1279, 1390, 561,
    2040, 961, 638, 451, 1360, 989, 1266, 2001, 580, 1937, 94, 135, 1664, 1039, 530, 761],
  [956, 1557, 1646, 1985, 340, 573, 1466, 1379, 92, 691, 1794, 1243, 584, 219, 1122, 649,
    756, 141, 1730, 1197, 428, 1901, 890, 793, 280, 1545, 766, 19, 164, 875, 1166, 655],
  [1328, 203, 330, 623, 1944, 819, 602, 1627, 2032, 1789, 274, 149, 1768, 337, 1994, 1137,
    1172, 1997, 630, 515, 1680, 1189, 182, 749, 1480, 1419, 674, 1875, 16, 47, 566, 313],
  [1644, 1303, 2034, 699, 524, 301, 382, 1799, 1912, 1077, 1074, 455, 432, 1991, 762, 869,
    512, 377, 1834, 545, 72, 1127, 2002, 1369, 1952, 103, 1882, 899, 532, 1495, 154, 889],
  [368, 1199, 614, 2043, 1392, 701, 522, 1925, 872, 223, 198, 639, 1332, 351, 2014, 993,
    112, 1803, 1070, 579, 2012, 2035, 1838, 1487, 1488, 799, 1038, 113, 40, 73, 1022, 937],
  [1596, 1563, 1470, 1599, 516, 1971, 146, 825, 1164, 1567, 1358, 729, 1224, 1869, 978, 1165,
    372, 1061, 910, 487, 2004, 763, 1886, 1945, 408, 873, 174, 147, 84, 785, 494, 1143],
  [1376, 469, 1990, 115, 1296, 1953, 1246, 1281, 1660, 1541, 1842, 159, 1752, 963, 438, 971,
    1796, 407, 1674, 1115, 840, 65, 758, 657, 336, 1323, 30, 1871, 316, 1941, 2046, 119],
  [168, 185, 234, 827, 1464, 439, 574, 485, 628, 1889, 2042, 1597, 412, 541, 34, 381,
    1700, 745, 478, 457, 732, 525, 1130, 521, 128, 437, 578, 1309, 560, 1349, 1042, 2041],
  [496, 335, 1594, 1951, 592, 1009, 302, 1859, 1712, 2013, 1706, 1477, 1400, 1535, 1650, 817,
    200, 1217, 1702, 995, 416, 1461, 1478, 427, 940, 1387, 1614, 205, 1156, 1295, 1474, 1017],
  [1580, 211, 902, 667, 1676, 829, 1002, 1635, 1264, 947, 714, 1, 1048, 1097, 590, 905,
    1728, 1833, 214, 1453, 1308, 295, 1338, 1049, 1868, 1801, 1242, 275, 420, 839, 158, 911],
  [1668, 1935, 1294, 879, 116, 1075, 650, 1883, 576, 123, 2038, 405, 696, 593, 946, 1393,
    1412, 391, 1506, 771, 124, 1445, 1054, 1005, 1784, 1451, 1046, 661, 1836, 303, 82, 247],
  [508, 1559, 1386, 955, 1916, 1345, 1018, 1993, 352, 1333, 1430, 711, 540, 1673, 718, 1125,
    684, 633, 338, 801, 1312, 1383, 1062, 1625, 600, 173, 1306, 1111, 332, 1751, 1442, 1145],
  [1656, 117, 1750, 1149, 960, 957, 926, 447, 664, 479, 1690, 895, 60, 607, 834, 1249,
    1072, 781, 238, 1141, 620, 1589, 950, 1743, 452, 1055, 314, 369, 876, 1771, 818, 1193],
  [1064, 1819, 586, 1855, 1012, 2037, 1090, 1081, 1532, 1823, 358, 1867, 1628, 263, 1542, 1421,
    1124, 1317, 190, 743, 260, 1019, 134, 627, 1484, 1129, 1714, 403, 928, 1041, 1686, 1399],
  [988, 725, 1694, 371, 1764, 2045, 474, 1537, 1908, 1797, 1286, 415, 44, 1219, 1774, 1227,
    140, 1099, 502, 1371, 1552, 321, 410, 913, 2024, 1579, 1862, 721, 1344, 463, 1974, 375],
  [984, 1931, 642, 1687, 1964, 695, 1790, 741, 1228, 1083, 166, 1853, 1568, 155, 210, 637,
    380, 1001, 1170, 713, 1652, 11, 1634, 777, 1884, 693, 1254, 1565, 1760, 1605, 350, 1235],
  [1928, 591, 486, 417, 1828, 1265, 982, 261, 1280, 919, 634, 1733, 1960, 1791, 882, 1073,
    836, 1473, 1150, 1251, 1872, 1717, 1778, 683, 1092, 1643, 606, 461, 1004, 1551, 42, 1691],
  [276, 467, 1114, 923, 456, 1085, 334, 1891, 1336, 1637, 310, 1415, 1096, 1353, 22, 1961,
    208, 1795, 1854, 1709, 320, 551, 1402, 1305, 220, 227, 386, 531, 1800, 1095, 1678, 1167],
  [1840, 1297, 842, 1135, 1892, 823, 1930, 1245, 1880, 379, 1086, 83, 1268, 849, 934, 1649,
    8, 647, 1034, 1027, 828, 1701, 1142, 1261, 2028, 1707, 1186, 917, 1232, 559, 1078, 1373],
  [744, 1815, 942, 2011, 32, 1601, 894, 1443, 288, 243, 1762, 967, 944, 1929, 1274, 1319,
    1024, 1959, 1414, 1057, 76, 1639, 1914, 1881, 908, 499, 366, 1367, 156, 2007, 1366, 1401],
  [2036, 373, 1158, 1405, 1904, 1213, 222, 703, 236, 735, 1026, 1151, 1844, 1919, 1510, 1505,
    776, 1037, 2006, 1397, 2020, 1845, 1562, 1999, 2000, 1311, 1550, 1493, 1212, 2027, 1534, 795],
  [400, 1693, 1982, 577, 1028, 1583, 1734, 1337, 160, 1313, 1870, 333, 1736, 519, 974, 1065,
    884, 1573, 1422, 999, 624, 1275, 1210, 883, 920, 167, 1970, 659, 792, 143, 1006, 1655],
  [1888, 981, 1106, 153, 1932, 951, 1758, 1793, 2008, 319, 1518, 671, 1956, 1475, 46, 1483,
    608, 1355, 1894, 129, 1060, 63, 1270, 1169, 308, 1835, 1234, 977, 144, 719, 682, 1713],
  [1948, 1933, 746, 1943, 1976, 253, 450, 997, 1140, 1339, 866, 759, 1468, 1271, 546, 1447,
    1152, 1257, 990, 1389, 1244, 1767, 1642, 1033, 1428, 949, 498, 1821, 148, 1177, 1554, 1491],
  [1008, 847, 1622, 673, 852, 1521, 1866, 517, 1500, 1175, 1798, 1989, 1300, 2047, 282, 1329,
    1756, 191, 434, 1507, 1688, 1973, 1010, 939, 1452, 1899, 698, 1259, 56, 1807, 1986, 1947],
  [424, 723, 1782, 1179, 904, 861, 1514, 1375, 1776, 1893, 1226, 1671, 1588, 1609, 1102, 1923,
    300, 709, 2026, 1965, 1820, 807, 1850, 1561, 1864, 483, 1754, 787, 932, 1351, 1630, 1423],
  [2016, 1553, 1806, 53, 1940, 1079, 1162, 1501, 1088, 1471, 706, 339, 1876, 1105, 1458, 1905,
    1924, 903, 2018, 1283, 1188, 1957, 1566, 1517, 1604, 1963, 1558, 1173, 1704, 1489, 594, 1629],
  [1364, 601, 1946, 349, 1592, 1857, 1846, 1699, 1548, 25, 1942, 1223, 1640, 355, 1214, 1575,
    700, 1385, 1918, 679, 1824, 1895, 1746, 1587, 284, 755, 1818, 1623, 844, 281, 1954, 1657],
  [964, 1107, 1310, 1661, 228, 1469, 1438, 959, 1176, 991, 1334, 1407, 572, 1153, 1346, 1761,
    1584, 1293, 750, 1653, 1132, 1391, 1462, 1873, 312, 2029, 826, 1749, 1388, 237, 1330, 1051],
  [1576, 1949, 1098, 833, 1524, 1839, 1602, 1593, 2044, 1569, 870, 589, 304, 775, 1426, 1321,
    1636, 1829, 702, 1255, 772, 1531, 646, 1139, 1996, 235, 1902, 915, 1440, 85, 1250, 1911],
  [1076, 1237, 86, 1851, 1472, 1207, 482, 1499, 1168, 575, 170, 1769, 556, 1731, 730, 1739,
    1648, 1611, 1014, 385, 188, 1455, 922, 1425, 500, 1581, 1490, 1233, 1856, 975, 1922, 1969],
  [1496, 327, 1154, 1753, 564, 509, 1450, 1253, 1740, 1595, 1418, 1015, 1036, 1527, 722, 1703,
    892, 1513, 1682, 1645, 1936, 2023, 1118, 1289, 1432, 1205, 1766, 727, 972, 1433, 1822, 1747],
  [1556, 1103, 854, 929, 1792, 1621, 1494, 773, 1716, 1431, 1278, 511, 1204, 257, 1394, 1585,
    1348, 1211, 1950, 1763, 764, 1519, 1710, 1195, 1788, 1133, 98, 1515, 1516, 145, 554, 797],
  [788, 1053, 1626, 1435, 1128, 1117, 1218, 1631, 1848, 1439, 1698, 1927, 1608, 1865, 1066, 1861,
    720, 965, 1606, 359, 900, 1063, 14, 1817, 1180, 739, 1826, 1043, 916, 1607, 1530, 1679],
  [404, 1809, 1174, 1365, 1708, 1335, 1126, 1757, 548, 1727, 1598, 1897, 1780, 835, 1446, 843,
    1112, 1159, 1546, 1539, 1340, 1503, 1654, 1773, 616, 685, 1726, 1429, 1744, 1745, 1590, 1885],
  [1256, 857, 1454, 605, 824, 539, 1406, 1955, 800, 1109, 734, 1479, 1456, 611, 1786, 1831,
    1536, 1641, 1926, 935, 264, 809, 662, 1843, 1420, 1011, 1906, 1879, 668, 537, 1878, 1913],
  [1808, 1363, 1670, 1917, 1436, 1725, 1738, 1215, 748, 1755, 1538, 1663, 848, 1409, 2022, 2017,
    1288, 1549, 1314, 1909, 704, 1647, 1718, 299, 1404, 423, 1998, 2005, 1724, 493, 1222, 1307],
  [152, 855, 1898, 1089, 632, 1457, 1874, 1849, 980, 1825, 1978, 845, 1620, 1031, 1486, 1577,
    1276, 383, 1934, 1511, 1136, 1191, 1722, 1395, 1624, 885, 1134, 583, 1304, 1113, 1146, 1465]]

set_option maxRecDepth 100000 in
/-- `m_RandomTable`, libs/math/cellnoise.cpp:752-1164, in rows of 32 and in units of `10 ^ -14`. -/
def randRows : List (List Nat) := [
  [47291105050000, 73854134740000, 848406460100, 40976652740000, 10108725730000, 73903670860000, 54952592500000, 11237714110000,
    3298647143000, 27849207960000, 50090228300000, 84475553640000, 18138039480000, 67386731830000, 47015183880000, 96169192390000,
    72177418880000, 65375100590000, 36520544350000, 6291822577000, 43188401310000, 20906845430000, 14109020030000, 63776139590000,
    25963019020000, 41449283950000, 16577419170000, 75862486520000, 52589599420000, 50180945870000, 86140183080000, 35454811200000],
  [66830206480000, 96648311380000, 77716983760000, 9609435732000, 93224644660000, 98867861880000, 75009384100000, 42281638500000,
    91546025310000, 94998443270000, 30991560500000, 74455048750000, 37232895570000, 32708941730000, 98440088050000, 34778853550000,
    18422929760000, 74366272010000, 66127788180000, 3837817395000, 90213183310000, 46168678210000, 66306638810000, 5180114182000,
    76771909180000, 9349347046000, 69104747010000, 26227971770000, 61926936730000, 81575333650000, 29462384150000, 22196129010000],
  [58855613130000, 86666799850000, 2232083585000, 6143105263000, 99501307310000, 60761564920000, 91067800760000, 78280282440000,
    34341476300000, 93049968920000, 46728135920000, 97663799530000, 83132294190000, 29205048410000, 80418619230000, 49394259650000,
    27254843530000, 15633024790000, 7798058446000, 10449249530000, 84287869190000, 12669105040000, 89273949060000, 67273671600000,
    55432094820000, 54843595020000, 82211946980000, 88252888480000, 86411101740000, 86343325260000, 70684403650000, 4193680035000],
  [32473770340000, 49793389210000, 88382963740000, 99938012890000, 68123283980000, 56484194050000, 320225302100, 70234622480000,
    32197695410000, 16168823980000, 58945462390000, 42993407560000, 48927055670000, 54555715950000, 299410242600, 23047637240000,
    15592105500000, 96621647990000, 95833112950000, 59548970540000, 97409529240000, 43870039980000, 25515833590000, 90120288400000,
    20268771240000, 23659566930000, 87857026890000, 64891338210000, 1945414767000, 38728084740000, 12467374370000, 3542190837000],
  [12416123410000, 95036868520000, 90783882050000, 88479510180000, 3900144994000, 36060163330000, 90584040530000, 47270635190000,
    1252377965000, 61645047510000, 69914047700000, 27460474380000, 93333000320000, 59566608400000, 56056093890000, 16896212890000,
    15978660990000, 27903430680000, 5159709509000, 12684832000000, 67200233790000, 16358397110000, 8162175212000, 91908441160000,
    45232133750000, 64649801840000, 58622994550000, 87222422520000, 50058196110000, 66097776170000, 48097429150000, 20461387980000],
  [39039117660000, 34531026850000, 4674096312000, 97377948700000, 77266460660000, 2638886822000, 40301629250000, 16639297130000,
    73268219270000, 29893678570000, 22529399670000, 96206601570000, 40690948440000, 48168389830000, 36287302990000, 70222213170000,
    76583455320000, 23174661910000, 51329605930000, 59529685460000, 96907053140000, 59846090480000, 60967856740000, 68951606420000,
    19897377680000, 29791838820000, 7717857789000, 14450242980000, 37902766090000, 48945563610000, 61485700770000, 33295998020000],
  [68324198390000, 83534653250000, 65917864350000, 80368679990000, 24281801280000, 12494778590000, 18540374280000, 63716584860000,
    95632914640000, 24454756220000, 312026124400, 22498390680000, 80966720360000, 77416724290000, 20216670350000, 432864623100,
    61200433780000, 99256630750000, 90519560040000, 17881382490000, 55402057620000, 57170034150000, 98312760980000, 95688260770000,
    49464698320000, 74188216920000, 88974624410000, 33903901140000, 38257445020000, 20889611120000, 27168322080000, 98515747530000],
  [71877810920000, 60431536800000, 51004443970000, 19312055640000, 46630737190000, 75027252690000, 84992658440000, 52003474950000,
    31359159390000, 51993319530000, 27407434860000, 7727443287000, 69751136380000, 57492275860000, 77692828790000, 3060393827000,
    49248541710000, 76095626270000, 19531329630000, 33662774650000, 77182317530000, 44292142200000, 25201770760000, 24681880740000,
    54759291000000, 56066475200000, 96851302220000, 61037498570000, 89525553210000, 68673082770000, 10306425860000, 50715363070000],
  [36931400560000, 86730466550000, 77048092990000, 24193427200000, 11622838680000, 52760723190000, 89975864530000, 23125943960000,
    59084648830000, 22299407560000, 68586133700000, 81410360940000, 28260016810000, 51700708600000, 69189411120000, 51762027340000,
    35771724400000, 76762937520000, 75791672520000, 80921713500000, 62369903180000, 10299328670000, 37264768870000, 86620942920000,
    72231351030000, 36779152740000, 66430899040000, 39430136840000, 95735410970000, 32164142610000, 66686144940000, 2614571201000],
  [66341412630000, 87065231570000, 1788069215000, 33123146230000, 52192676070000, 61344604150000, 74432375380000, 96834968450000,
    73072078270000, 48288059370000, 29243630450000, 1188745210000, 43334181980000, 76472686560000, 45805050150000, 98319991720000,
    31438927170000, 27454853570000, 37352346540000, 61831050600000, 76711884890000, 97403507630000, 20756638140000, 90318923860000,
    53956073710000, 80803788590000, 73421422670000, 40785917500000, 26540338620000, 4355954705000, 42718612120000, 45058098480000],
  [78589292430000, 89194620910000, 23588630460000, 12336564300000, 66899819670000, 69553309630000, 69929573780000, 71006524980000,
    83209143020000, 45999314030000, 55400432930000, 52829197650000, 67439452190000, 1363873808000, 49263378700000, 72641513540000,
    62544095330000, 57492663480000, 22890109480000, 6688637519000, 51580332960000, 941593153400, 52557261380000, 22714300130000,
    67633654360000, 55742921820000, 34155880940000, 64933942120000, 17218656470000, 31366683120000, 75439960230000, 47015671480000],
  [7781485282000, 24002423650000, 81439034550000, 56194032960000, 19928839800000, 99286253700000, 98659842550000, 21641590120000,
    15008538400000, 34598210590000, 33702048940000, 50223319840000, 18666647750000, 49054934410000, 11913029570000, 82758819360000,
    71006174200000, 99322656310000, 91706719160000, 73917325820000, 83972317730000, 69375499290000, 171521399200, 48870548280000,
    96589288300000, 32324091480000, 5592281651000, 39828312260000, 68673684820000, 12439491930000, 92511322070000, 55582016750000],
  [3649436496000, 25497428840000, 54953539280000, 87180903790000, 41089306770000, 25567850420000, 73440564520000, 2866140427000,
    9607959725000, 36374788130000, 91418986300000, 35387713320000, 80731588970000, 95351532430000, 56727635580000, 14829135730000,
    14369109090000, 88516121120000, 43728933390000, 50064967060000, 36509909480000, 4292140109000, 21729301010000, 11976144880000,
    39773170840000, 84399836650000, 85313632620000, 21548129480000, 47433744000000, 99942545170000, 12218830460000, 95976860870000],
  [31549591380000, 30813425550000, 64371402470000, 55907528340000, 25815790890000, 76547513860000, 97714122480000, 46931152460000,
    23770102300000, 76744085690000, 96446752830000, 78463979670000, 2975096181000, 69184331920000, 97305829540000, 33134689230000,
    65801845300000, 63769346990000, 19508509990000, 49804412810000, 37440178540000, 60403429670000, 65985483020000, 33344566500000,
    11760497280000, 88947696380000, 11527941660000, 94297495340000, 85652154310000, 99369006930000, 43473618200000, 71544930390000],
  [72463395260000, 80209202830000, 70556881930000, 41109258170000, 35167862470000, 33499658060000, 65547899250000, 64212602800000,
    29882661440000, 84246142350000, 57305856330000, 77718720450000, 362989679000, 52608996960000, 37871244270000, 80082706410000,
    14098328170000, 66903622960000, 222206767600, 15933514620000, 80635195230000, 45546282040000, 72319950260000, 12414289680000,
    42751462940000, 26070209730000, 63068216570000, 70405511420000, 81107236070000, 69337041260000, 85811818110000, 63755951870000],
  [22997293440000, 17068549760000, 74999235480000, 49646444850000, 95830091830000, 30823697100000, 61634277650000, 43211467980000,
    15958332460000, 90545997160000, 23141804620000, 59543537210000, 53486089780000, 80806191590000, 73272512570000, 76205413840000,
    63677502980000, 42865238110000, 7671781536000, 19375124060000, 25592029840000, 20682611270000, 70737585520000, 26748791010000,
    78571263140000, 78994915770000, 59392465190000, 90326279260000, 97202309590000, 21589812220000, 29394563010000, 32204651880000],
  [95382731220000, 87900255390000, 19812720920000, 16504439940000, 112049281600, 56044045040000, 61290640480000, 50553724590000,
    85634810660000, 30433689200000, 83725105510000, 78455031520000, 8560216799000, 42081579890000, 88983267270000, 20160038070000,
    34583315070000, 39725481490000, 4283992108000, 59177092700000, 97432752700000, 99899331430000, 81868271620000, 32036547040000,
    80670093190000, 34074353570000, 60583695300000, 22638900440000, 62965695190000, 20995483870000, 55007985700000, 14610756980000],
  [17476153930000, 42338108780000, 87736596070000, 4793595010000, 5948305130000, 49810115950000, 30459370560000, 30990349180000,
    58174791370000, 41824257510000, 69451266810000, 17094804950000, 77426191050000, 77865825920000, 61102141160000, 88728805680000,
    62484709730000, 8680642163000, 93110596300000, 62512272080000, 86904434110000, 50408356590000, 16966891380000, 62091034320000,
    26123148390000, 80786062170000, 67349914740000, 64047476510000, 73050713170000, 85547220290000, 34063219000000, 26818993730000],
  [32759006880000, 33140899010000, 2135118749000, 5749261612000, 36898429690000, 5896323873000, 25707850700000, 7397318305000,
    68465969900000, 65757741170000, 51340796330000, 86229459060000, 37549832840000, 82714593740000, 56352767070000, 36818943220000,
    98675632290000, 4052009201000, 17828351910000, 84678513790000, 50379144400000, 92546600800000, 77913327610000, 28850729440000,
    7630624063000, 11732580650000, 21024131310000, 39381109040000, 87735683840000, 86363185520000, 28596395720000, 62799088700000],
  [337735377300, 16192415120000, 26997546760000, 38731791310000, 82146993280000, 71202082890000, 94228463710000, 80775608540000,
    67021041550000, 46399179240000, 41039201900000, 24750595400000, 32021962480000, 4308547406000, 32083777800000, 97462677260000,
    10075028050000, 83285871660000, 62739016770000, 9098669374000, 9853953868000, 99775978130000, 57212463110000, 22379108940000,
    33517715520000, 22641448070000, 3564352822000, 1593899587000, 32923927530000, 47686543640000, 91268648670000, 94645768450000],
  [94943784740000, 50501446190000, 66938137910000, 51226535670000, 96503566210000, 45751807050000, 73838592410000, 30251196450000,
    19977701640000, 31038610780000, 90816991310000, 99674815540000, 69558400290000, 43453350990000, 36268806180000, 81817234350000,
    79226842340000, 6953518605000, 52769348680000, 47320590400000, 52950932830000, 98683402640000, 37994180710000, 10864649390000,
    27734618080000, 12365203490000, 37553587090000, 31764949720000, 143764540600, 46885458710000, 65366110670000, 72578759540000],
  [6933600269000, 98201781280000, 67196150030000, 18843846260000, 402718782400, 82694910420000, 92980619610000, 13075058580000,
    9098645486000, 70091074840000, 93569672390000, 6143721053000, 24499966580000, 54079668550000, 7506485004000, 79164841070000,
    4300020449000, 38751239100000, 53471105450000, 39017128430000, 32917151600000, 68980788390000, 94013363220000, 40620827350000,
    29856527040000, 82881385970000, 86199841930000, 39098360990000, 46548515190000, 14453094780000, 84799914530000, 24942788530000],
  [42288627290000, 24552209440000, 13635840920000, 45319074630000, 79904021320000, 88305807070000, 70721928120000, 64623171510000,
    31771568400000, 17096610510000, 82817752940000, 67423913490000, 36812481660000, 43243164150000, 75020447090000, 56912723980000,
    99088507700000, 45500322200000, 71021044910000, 51986135030000, 68624680490000, 43505049450000, 89649893440000, 36086119390000,
    95083637720000, 39292534580000, 53336125150000, 60923234980000, 94916499780000, 34007615920000, 74106193050000, 58207581980000],
  [22615311110000, 97936519750000, 32746468390000, 62512572340000, 86692044140000, 21983911050000, 16754900760000, 98396511790000,
    1009165682000, 28720256830000, 32706740780000, 34906994410000, 12086765840000, 71124501850000, 58659325260000, 60593109620000,
    93011249420000, 97147056970000, 52220924850000, 82150461760000, 44570589810000, 8218099875000, 79908654190000, 99824002060000,
    94241145440000, 89826188380000, 83420444560000, 62693673230000, 33651038630000, 42292186200000, 48446079060000, 56967866470000],
  [85145097040000, 89863501260000, 91642290260000, 30409690970000, 38076357540000, 96253636430000, 31396920330000, 6021055998000,
    45449132660000, 64752052860000, 58007143720000, 88109565390000, 21538639440000, 51029345720000, 68896752320000, 13863224580000,
    31112190890000, 66762732480000, 84497503100000, 53557960180000, 10876949880000, 2206853731000, 10419528280000, 12522951930000,
    13779245500000, 45834886420000, 61535807980000, 37988777320000, 16780452060000, 29174969670000, 13605705370000, 83943368540000],
  [82734430400000, 74966943030000, 98062564340000, 37120782070000, 16991531850000, 76764397280000, 5590369646000, 57247780680000,
    9354164638000, 88107037680000, 14114469570000, 34673227980000, 2008922771000, 49388359810000, 6831361074000, 18505295410000,
    74060277450000, 30543637790000, 95902537460000, 18381481850000, 83290831000000, 17683225080000, 17437398530000, 32996445570000,
    55773133230000, 21796167780000, 13390223220000, 8512648800000, 63958060370000, 37649130400000, 65996204780000, 79978814770000],
  [83864756490000, 31005634130000, 371548440300, 98881197210000, 71997137370000, 82290607640000, 20902631520000, 99952662410000,
    52611956930000, 64825250350000, 97049226150000, 10364583740000, 55963436140000, 85757208200000, 64186784350000, 54426548680000,
    98149454410000, 67811061950000, 55112785750000, 56918878340000, 43184303490000, 99984127980000, 27842147740000, 98182959530000,
    37923003920000, 35312571520000, 5316698086000, 24094389240000, 60462183880000, 63832832450000, 92653710120000, 64043931710000],
  [72642520630000, 38863363630000, 87558500380000, 60051287940000, 17277744410000, 84731681600000, 49526088780000, 60136677740000,
    50735204850000, 64071729920000, 43456921260000, 79075234240000, 51492999870000, 32816554930000, 23311654940000, 79659210940000,
    95298667070000, 61011294040000, 71430005790000, 77593001210000, 37554437670000, 47571476500000, 59138658740000, 23145970380000,
    93554052900000, 7111636689000, 44273240400000, 62688100200000, 57196142900000, 56969239890000, 71239354180000, 33233445930000],
  [48799168130000, 82548920580000, 89237677960000, 93116405840000, 32642923300000, 9112033201000, 54278124220000, 41925803250000,
    94861603710000, 58136515460000, 30608062730000, 32821781050000, 22313434260000, 16372064080000, 57179605680000, 30360508760000,
    73051860740000, 95715623120000, 94780955370000, 16951702020000, 79023303840000, 12032184700000, 19456814320000, 1073954673000,
    71616475470000, 61045902360000, 77842857970000, 30372883240000, 70688257740000, 19426516770000, 70039269790000, 62767083990000],
  [27691144310000, 49196094040000, 75648339000000, 98686902460000, 63527244330000, 33581076520000, 88601120650000, 27571015480000,
    91753848830000, 22434646030000, 76398158350000, 91745825720000, 67765559630000, 15354399710000, 29389269370000, 20812668700000,
    54577980750000, 60620338240000, 15717392320000, 39667832340000, 45837972310000, 98078166650000, 7551497314000, 3280388983000,
    36685466950000, 24092907600000, 94233558610000, 61352839930000, 83091848720000, 6697827158000, 47964589760000, 5989572452000],
  [40299894470000, 29063673080000, 57654741310000, 5498129362000, 20990277830000, 89413225600000, 96562460900000, 77448291010000,
    63799635510000, 35506160700000, 39347715960000, 4113969812000, 52815196290000, 61819225880000, 94164278820000, 43422917320000,
    78670972400000, 47546728470000, 65416074450000, 38539243720000, 81870513410000, 63546336400000, 12802590520000, 79203749870000,
    68961222660000, 26355191460000, 22278350130000, 17957071820000, 42185236140000, 27401335120000, 54551446900000, 94370637880000],
  [33231863940000, 15535446770000, 86746142710000, 70410438110000, 81716594100000, 61007894530000, 12854527780000, 30058606390000,
    49011659060000, 79016098520000, 18602243350000, 46317814900000, 8053164557000, 40947206640000, 96353266850000, 68723481200000,
    99749781010000, 51441082870000, 15678759570000, 34488787730000, 96617997440000, 19398608010000, 15214976760000, 56407513890000,
    64268937890000, 1060293010000, 31435240340000, 90639680480000, 61371740330000, 43280204710000, 29960974030000, 37505006840000],
  [68718498010000, 5120204156000, 55036801010000, 78409180280000, 88015763460000, 85889497350000, 62794704080000, 2027938189000,
    1027614810000, 37754498560000, 53932248340000, 22873962530000, 29695284740000, 91044006080000, 71429866270000, 45371586880000,
    87858351880000, 70374690510000, 78932205490000, 76564315940000, 65202494710000, 29721895560000, 85418538840000, 40580157610000,
    34058807980000, 84560751310000, 31787237060000, 97979767480000, 19679681580000, 69202600000000, 4979303945000, 23112405880000],
  [24616242010000, 97451734310000, 95265974010000, 42604707410000, 47822356220000, 54707448140000, 62325372640000, 88107262970000,
    89110198060000, 99636399890000, 25733238740000, 66424014280000, 79582377150000, 3540288238000, 45492709890000, 149460928500,
    28665630330000, 5543840444000, 8228170034000, 41938679900000, 28371075540000, 11728113100000, 84668159580000, 15535157590000,
    5406028219000, 16334105420000, 74042348100000, 86681434370000, 61762380230000, 73161685050000, 1017569471000, 17037561580000],
  [94406541250000, 95288826290000, 80797919540000, 4232371086000, 34695942700000, 11236160950000, 18013916260000, 61172557300000,
    98147104120000, 55701841550000, 55025722370000, 37734571700000, 85180262100000, 22991717190000, 35265430530000, 37964329920000,
    23465561680000, 61269821740000, 97243411000000, 35909731170000, 92495810240000, 35754174690000, 64843721780000, 43210990400000,
    21010793930000, 38982894410000, 49533581270000, 31573782720000, 97898156570000, 76275623920000, 30111903420000, 63250200500000],
  [87195841040000, 4515269166000, 25621895400000, 32652522860000, 87821093200000, 52375049840000, 27052717750000, 72224797730000,
    28651028310000, 115862628400, 3455207031000, 25697236370000, 39579759910000, 47078956990000, 48096660990000, 41848420400000,
    89177091230000, 44998923460000, 80279686210000, 91900321330000, 29573769120000, 25261994400000, 68450108260000, 63671132600000,
    39198300430000, 98234657340000, 90218944380000, 35610914090000, 3990330920000, 52787580670000, 94923438600000, 83845049190000],
  [27715586680000, 34139851990000, 84352159410000, 25350514290000, 12007378040000, 28148528890000, 77259159930000, 50389960830000,
    96759665940000, 30168502170000, 73292200550000, 47328609830000, 1496690884000, 26607671710000, 81960034090000, 72958958940000,
    58344164300000, 67302434660000, 32263753470000, 71458301930000, 77227022500000, 56838486300000, 28617201840000, 95104060740000,
    33918743020000, 42941933260000, 68681445250000, 29871930040000, 21567223590000, 30065719360000, 88738307820000, 79041834220000],
  [56322223510000, 96296363840000, 52227969370000, 7936696941000, 77689367530000, 41706012140000, 47075625600000, 2919023158000,
    34235712330000, 46274799250000, 7432210725000, 47770293660000, 95271875340000, 65508525400000, 25454182640000, 70578172100000,
    79135726210000, 41876644410000, 68747370600000, 64256524530000, 38702640680000, 60195564430000, 69099885320000, 33823251400000,
    94747317020000, 25082261260000, 98129091690000, 73560932140000, 57782154900000, 88603204070000, 95467643910000, 27185282160000],
  [28997196820000, 6243593758000, 65113583110000, 34146422380000, 20926631990000, 49321913670000, 5569497589000, 15187961280000,
    88466862780000, 51974792920000, 89395745380000, 288889417400, 10871133580000, 20837182130000, 57802739460000, 52113286450000,
    15345722250000, 85542841770000, 45907295400000, 88092840700000, 82872693990000, 18170142870000, 4278041515000, 54267181130000,
    26884217750000, 99758180370000, 32394891510000, 54007021940000, 85413445160000, 62018198850000, 89647579660000, 84745119560000],
  [17346951920000, 82365330820000, 99498258440000, 85840042170000, 43403741720000, 60395647540000, 12433158700000, 50697751760000,
    22465812600000, 53933522240000, 43328312320000, 6275998661000, 3885285929000, 2774305968000, 48854337350000, 13096528550000,
    46393097750000, 18247315800000, 60545285700000, 88890101990000, 44234252720000, 66724135680000, 39156553240000, 8999326499000,
    51154640500000, 25197229670000, 65936852530000, 86664301020000, 42864414680000, 37053867760000, 36439247900000, 86316072990000],
  [8602934144000, 46170364090000, 72496253160000, 73002907870000, 12430267040000, 37451627800000, 17983991750000, 51074371160000,
    14870257120000, 61941026290000, 34000419360000, 95248222960000, 95530152690000, 74625560970000, 59082609140000, 27185124950000,
    67321798020000, 63061355570000, 50088099300000, 40696159980000, 22909387200000, 94944456920000, 69365303310000, 28708164070000,
    4008780606000, 62751948230000, 33837982550000, 15111870920000, 34163383770000, 53578374860000, 91628781430000, 44617869010000],
  [5621588789000, 22292482620000, 41846825090000, 33745371040000, 60940778260000, 96139268530000, 63164379540000, 36068796040000,
    59942891640000, 88912344120000, 66807574310000, 24847163870000, 72646554190000, 52821611190000, 39586187620000, 46161302230000,
    88800768370000, 46181250130000, 92587494010000, 45683866230000, 84645167740000, 45043020650000, 81159174540000, 22207170400000,
    37521833370000, 76899875100000, 11806289390000, 11053833230000, 28963672740000, 4584884224000, 1627313066000, 50495234180000],
  [26884361170000, 38490475480000, 5914232042000, 34302783250000, 87494845690000, 5232983781000, 79541704900000, 3557002963000,
    67571411470000, 50887514790000, 87770284990000, 80839422950000, 87700310720000, 6918120710000, 32088705620000, 99932286930000,
    37123954110000, 96928288550000, 6720227655000, 34151072290000, 60813664640000, 12356740930000, 51418049730000, 76434822050000,
    19393994100000, 35243549340000, 16174780860000, 74319289480000, 62543601920000, 36191559910000, 3470975626000, 72917895070000],
  [6497696601000, 25648131730000, 3687731829000, 69035496050000, 56277039650000, 86632187620000, 89308350630000, 29539968490000,
    63268511930000, 67031577370000, 83534059210000, 77116601770000, 58782242610000, 59595753580000, 68938795940000, 96530305640000,
    54210300560000, 47748759900000, 51788058040000, 64520629730000, 48411948230000, 45347531840000, 47646811700000, 56454595600000,
    32950458120000, 8510510018000, 3901464771000, 32862341260000, 35806491600000, 47641565980000, 24820901920000, 58980578230000],
  [94193040390000, 17774240440000, 14781582260000, 60428861020000, 97096930440000, 15361294100000, 5281699542000, 68143669190000,
    88171888330000, 59634570920000, 81369404770000, 55695301900000, 69608170170000, 86660173860000, 73110091410000, 22112584910000,
    97603753020000, 34213953230000, 27717742980000, 23340390110000, 10062088820000, 45602307420000, 27975343260000, 5454967590000,
    77141420730000, 70553296200000, 72569348940000, 42762090130000, 15280662100000, 91303066490000, 83963224760000, 33903010240000],
  [55326837860000, 52002590660000, 59435041160000, 59093229710000, 5389088392000, 19569717300000, 30904134460000, 51619081620000,
    99044235980000, 54111534500000, 49171829500000, 86717124890000, 69518913700000, 17042045620000, 58201224820000, 40961351290000,
    40473256820000, 95020157610000, 75061040280000, 25283205000000, 74011156710000, 67832981750000, 41158527230000, 44749414590000,
    66542077250000, 98349446940000, 60386441180000, 88222637630000, 33119433750000, 72669225510000, 89809076950000, 1029917644000],
  [70880534310000, 68591971460000, 98512366320000, 43763953680000, 42213083800000, 80531871270000, 60243038180000, 90342182340000,
    68273250200000, 79002507170000, 95461841210000, 68448672300000, 73480293530000, 32797032920000, 28435829000000, 95483831360000,
    71612757260000, 71988662100000, 74994707760000, 13146925950000, 34131222220000, 19876468880000, 26576246410000, 73776413170000,
    31352622990000, 72001501310000, 46185749300000, 81573085350000, 87101126830000, 50358207100000, 41894591320000, 41831027020000],
  [37460575070000, 10926171900000, 33502815570000, 21301384500000, 34253486990000, 32647170080000, 77990793530000, 72813947920000,
    83871626300000, 65972528000000, 69384947700000, 27281545710000, 62083129960000, 69105799820000, 78662536760000, 6212251680000,
    95441199650000, 10065755760000, 49320503230000, 57854404530000, 49919355660000, 62694682880000, 14233383630000, 70099439890000,
    17398253270000, 74736998370000, 49425281120000, 63267534830000, 40629061680000, 36113175330000, 30380900670000, 15901064920000],
  [67298405430000, 25513981050000, 6520646717000, 26690873740000, 73819868270000, 63440027790000, 59464783310000, 65660354910000,
    49477059580000, 49811636050000, 60711656790000, 17732346660000, 81543243300000, 14274010390000, 94354980900000, 71803838810000,
    32002529320000, 57322727660000, 60465184510000, 58453492310000, 46497627350000, 10374537810000, 24759821690000, 89406971310000,
    86129163390000, 92908477180000, 30188044440000, 1885087648000, 22731558610000, 94802294250000, 36054137810000, 60959757910000],
  [88250470720000, 61989187960000, 305117573600, 23042772940000, 18846797940000, 13559858450000, 70607390350000, 13632379890000,
    84352245370000, 68434870380000, 99837476290000, 22442676730000, 43701453880000, 9732328681000, 51611794250000, 69040819300000,
    16965691560000, 64955866850000, 11480509400000, 42117040840000, 14613107590000, 30127947730000, 69410443400000, 65512483990000,
    14620548670000, 15993476800000, 89182047080000, 94129845360000, 28061937910000, 44418727930000, 30325435570000, 92851832560000],
  [43798216250000, 73110581700000, 38220485950000, 1592433685000, 92893846330000, 76781076150000, 67985997440000, 39605999410000,
    23384878970000, 62882270060000, 57782914020000, 52179137480000, 26023582000000, 50036418760000, 17156609610000, 52830419740000,
    1624631695000, 87286462400000, 46043235720000, 64142901680000, 10637866710000, 42291826710000, 50065131580000, 10354454490000,
    95572604430000, 36594536300000, 67740296850000, 64830909530000, 16898519920000, 56080640430000, 75230926740000, 5547015416000],
  [93048087320000, 14761951330000, 84256009660000, 81700207530000, 85145583750000, 3094924614, 98792987410000, 44582190040000,
    17087655700000, 77318874140000, 46193477790000, 45833330460000, 71600447970000, 82866944700000, 48338059800000, 56204866660000,
    52898295040000, 81760803380000, 48455121280000, 7953926409000, 56568975000000, 20328088800000, 59228769040000, 13996359380000,
    37310525960000, 50439194730000, 47820801570000, 66942381720000, 15144624930000, 54031195820000, 23431744150000, 71140033050000],
  [10731529260000, 45952085920000, 43025946520000, 10851446030000, 50411580500000, 83250328850000, 845743063800, 7686928334000,
    31598270870000, 59034721690000, 17339675410000, 70421857250000, 89147872110000, 9029570548000, 93129777630000, 90321386650000,
    53330626900000, 8950178837000, 43642923890000, 85097966580000, 40028502790000, 90823648080000, 80031238590000, 44626675220000,
    63784508590000, 56379991160000, 52006569040000, 81543363490000, 14328573270000, 15638558150000, 18214020600000, 39850612030000],
  [87204987370000, 28814774520000, 59769554340000, 64656500750000, 9126406908000, 79672191990000, 2586647216000, 86171190860000,
    48679419790000, 58444851780000, 64117014690000, 21086319400000, 53006674720000, 82454960370000, 90130395910000, 44462206260000,
    1090572588000, 32550877840000, 97158401370000, 35247873750000, 14263520390000, 33490418600000, 86227423050000, 48558878570000,
    14569747630000, 56394464660000, 43505607080000, 17837956410000, 71603685240000, 71395891490000, 93488888910000, 40023478910000],
  [28449906970000, 28608806200000, 20351090930000, 46850723260000, 47349633280000, 95543098400000, 23083082680000, 15410954180000,
    65718797780000, 29089303450000, 20046003440000, 21093318470000, 3142676130000, 10198778240000, 68563547450000, 86034552050000,
    9972077422000, 19384189460000, 15178311520000, 26201499490000, 98146098110000, 81165314420000, 42197205220000, 50231446000000,
    44866438400000, 55585154290000, 26150923500000, 13155262030000, 9748281166000, 4921359895000, 73792481890000, 78128360260000],
  [56072733360000, 13717970020000, 51259814110000, 89294465120000, 16765829920000, 90262462150000, 72027432270000, 8907194855000,
    95729100150000, 27633115790000, 59272149480000, 21834456040000, 45146696640000, 52441688210000, 48277865070000, 60570650590000,
    9394086711000, 39396402750000, 44504412170000, 53881695350000, 76173306260000, 19810249610000, 2945467923000, 52207854060000,
    25499776190000, 62179599100000, 44400526120000, 32949381930000, 17165681350000, 52958127440000, 74285932350000, 38759982630000],
  [7304911874000, 55651055040000, 19609981680000, 51973077890000, 34684567150000, 76354697300000, 49737078790000, 58285889450000,
    67348022200000, 13866327840000, 96565960630000, 2826333651000, 50234556570000, 22489354340000, 39746981580000, 91727728440000,
    44400545770000, 65658806780000, 72563461120000, 42336312910000, 98467215150000, 88512138230000, 14102093970000, 35176579330000,
    42919956330000, 87530338160000, 83337422740000, 70799417650000, 47884206100000, 5374358175000, 755373109100, 84638072600000],
  [35002887810000, 29041850330000, 33140851460000, 22996913130000, 84040415290000, 19469217910000, 47154405060000, 33298014520000,
    24838259260000, 50703978680000, 87322944680000, 71710552880000, 55247076230000, 86772440700000, 44069529790000, 81288012160000,
    75660399910000, 74367690600000, 27407216190000, 43738203730000, 80774895100000, 79482894340000, 11921966170000, 57951098350000,
    99202174130000, 46114910530000, 68669621180000, 48409470780000, 21557175740000, 5163216172000, 49611936980000, 56607356710000],
  [7648106478000, 11649144950000, 40216681270000, 18601322410000, 13392944630000, 38380438040000, 45846793890000, 81819546640000,
    28087506630000, 4186107358000, 27563609460000, 64253715290000, 62650075930000, 64846611350000, 52969142520000, 9158728318000,
    79467594440000, 44844343280000, 77712435180000, 38385219360000, 4468416423000, 38059432010000, 23284967340000, 57469887710000,
    12046624910000, 55535855280000, 66730129250000, 15608642860000, 23462910580000, 48442865490000, 7891756762000, 73637561550000],
  [9347013198000, 84356727960000, 29826728910000, 83146657280000, 36926725510000, 4987771763000, 18006628100000, 29851462370000,
    52608459630000, 43477752940000, 53933462780000, 44347422430000, 40534375980000, 29392530350000, 48794452570000, 33372103470000,
    47741074670000, 59535053880000, 32780875920000, 34700211370000, 16544849430000, 62703665300000, 65695980280000, 48796423940000,
    14778503960000, 36520711470000, 84476954770000, 50351035460000, 4504730925000, 84456470190000, 53255965280000, 32823413660000],
  [39831053280000, 31173388430000, 31585252190000, 89118269320000, 34451328220000, 44315633130000, 26451290490000, 81519738260000,
    89538813570000, 40868954500000, 43703012450000, 4008275876000, 22615796700000, 6215861766000, 4519092757000, 90085364180000,
    88024785930000, 4011111474000, 42539296210000, 69231031320000, 29626264420000, 5002508266000, 47284887820000, 25119183630000,
    56348006610000, 12922018160000, 69493105540000, 58715750140000, 81210957100000, 15572194340000, 53990695350000, 9384639608000],
  [14456672040000, 39232915410000, 15731508940000, 37126510080000, 51401323080000, 34513436210000, 24623163880000, 19075350880000,
    45641263760000, 71774751090000, 14767766280000, 63377877190000, 8235158399000, 74247269660000, 83741695900000, 93580737010000,
    23487673510000, 66968805110000, 97539453860000, 6650530780000, 21959731730000, 69667874980000, 66806572770000, 57751643330000,
    1330328174000, 11717314410000, 9986589383000, 74906888460000, 35734909400000, 97283201990000, 69007079770000, 56665965960000],
  [64205314780000, 98794097970000, 93129756950000, 55906731120000, 98836280410000, 6855595065000, 56589631080000, 2894276800000,
    43303505520000, 14735181770000, 25648232080000, 70722827920000, 62358281390000, 65542418090000, 40685894810000, 36265448530000,
    92923682740000, 40229423860000, 28958106690000, 39756561300000, 37417321650000, 14536679490000, 13640917930000, 96132279610000,
    29925663960000, 63009139290000, 34790414110000, 61253552000000, 15854908150000, 38207657220000, 47841251360000, 6137119280000],
  [35683426820000, 3240725165000, 15269254050000, 2319284016000, 53440770510000, 45741523760000, 57043074910000, 71477492570000,
    20538234150000, 51415285610000, 75489917680000, 2434729645000, 15575985980000, 65281971120000, 20200322290000, 88671725290000,
    50751758930000, 18739256780000, 8597012516000, 89471974460000, 85496104510000, 50570835870000, 67792806120000, 67824569020000,
    37959209270000, 25031855330, 13362587520000, 8209842304000, 34974273670000, 88724074890, 30654342940000, 67392826130000]]

/-- A look-up in rows of 32. -/
def look (rows : List (List Nat)) (i : Nat) : Option Nat := rows[i / 32]?.bind fun r => r[i % 32]?

/-- A look-up in `m_PermuteTable`, whose second half is the first one again, libs/math/cellnoise.cpp:332-745; `none`: the index is not in
the table. -/
def perm (i : Nat) : Option Nat := if i < 2 * 2048 then look permRows (i % 2048) else none

/-- A look-up in `m_RandomTable`. -/
def random (i : Nat) : Option ℚ := (look randRows i).map fun n : Nat => (n : ℚ) / 10 ^ 14

/-- The conversion to `TqInt` cuts off what is behind the point. -/
def trunc (x : ℚ) : ℤ := if 0 ≤ x then ⌊x⌋ else ⌈x⌉

/-- `if ( u < 0.0 ) u -= 1;`, libs/math/cellnoise.cpp:60-61. -/
def lower (x : ℚ) : ℚ := if x < 0 then x - 1 else x

/-- `permTableIndex`, libs/math/cellnoise.cpp:47-50; `none`: the number is not in the range of `TqInt`, and the conversion is undefined. -/
def permTableIndex (x : ℚ) : Option Nat :=
  if -2 ^ 31 ≤ trunc x ∧ trunc x < 2 ^ 31 then some ((trunc x % 2 ^ 32).toNat &&& 0x7ff) else none

/-- The look-ups of `FCellNoise1` to `FCellNoise4` for their coordinates, libs/math/cellnoise.cpp:60-62, 79-80, 103-105, 130-133: each one
is added to the result of the one before. -/
def walk : List ℚ → Nat → Option Nat
  | [], i => some i
  | x :: xs, i => (permTableIndex (lower x)).bind fun k => (perm (i + k)).bind fun j => walk xs j

/-- `FCellNoise1`, libs/math/cellnoise.cpp:58-65. -/
def f1 (u : ℚ) : Option ℚ := (walk [u] 0).bind random

/-- `FCellNoise2`, libs/math/cellnoise.cpp:72-83. -/
def f2 (u v : ℚ) : Option ℚ := (walk [u, v] 0).bind random

/-- `FCellNoise3`, libs/math/cellnoise.cpp:90-108; `y` is `P.x()` in line 93. -/
def f3 (x _y z : ℚ) : Option ℚ := (walk [x, x, z] 0).bind random

/-- `FCellNoise4`, libs/math/cellnoise.cpp:115-136. -/
def f4 (x y z v : ℚ) : Option ℚ := (walk [x, y, z, v] 0).bind random

/-- The three components, libs/math/cellnoise.cpp:152-156, 178-182, 211-215, 247-251. -/
def three (i : Nat) : Option (ℚ × ℚ × ℚ) :=
  (random i).bind fun a => (perm i).bind fun j => (random j).bind fun b => (perm j).bind fun k => (random k).map fun c => (a, b, c)

/-- `PCellNoise1`, libs/math/cellnoise.cpp:143-159. -/
def p1 (u : ℚ) : Option (ℚ × ℚ × ℚ) := (walk [u] 0).bind three

/-- `PCellNoise2`, libs/math/cellnoise.cpp:166-185. -/
def p2 (u v : ℚ) : Option (ℚ × ℚ × ℚ) := (walk [u, v] 0).bind three

/-- `PCellNoise3`, libs/math/cellnoise.cpp:192-218. -/
def p3 (x y z : ℚ) : Option (ℚ × ℚ × ℚ) := (walk [x, y, z] 0).bind three

/-- `PCellNoise4`, libs/math/cellnoise.cpp:225-254. -/
def p4 (x y z v : ℚ) : Option (ℚ × ℚ × ℚ) := (walk [x, y, z, v] 0).bind three

end Verif.Math.Cell
