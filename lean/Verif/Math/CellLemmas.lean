import Verif.Math.Cell
import Mathlib.Tactic.Linarith
import Mathlib.Tactic.NormNum
import Mathlib.Algebra.Order.Floor.Ring
import Mathlib.Data.Rat.Floor

/-!
Lemmas about cell noise
-/

namespace Verif.Math.Cell

namespace Spec

/-- Specification: coordinates that the theorems are about: integers that are negative are left out, and so are numbers outside of the
range of `TqInt`. -/
def Good (x : ℚ) : Prop := (0 ≤ x ∨ x ≠ ⌊x⌋) ∧ -2 ^ 31 ≤ ⌊x⌋ ∧ ⌊x⌋ < 2 ^ 31

/-- Specification: cells that the tables cannot tell from each other. -/
def Same (x y : ℚ) : Prop := ⌊x⌋ % 2048 = ⌊y⌋ % 2048

end Spec

open Spec

set_option maxRecDepth 100000 in
/-- The inverse of the permutation, in rows of 32. -/
def invRows : List (List Nat) := [
  [308, 1131, 354, 403, 484, 211, 222, 535, 1424, 113, 454, 1333, 420, 565, 1910, 507,
    924, 253, 350, 891, 444, 315, 1390, 39, 108, 1705, 270, 533, 684, 557, 1050, 217],
  [1444, 435, 1070, 407, 820, 715, 182, 377, 988, 185, 1374, 397, 1292, 677, 1550, 925,
    572, 541, 518, 133, 760, 1667, 790, 47, 1628, 671, 154, 291, 1228, 357, 550, 1557],
  [648, 1045, 570, 467, 344, 503, 798, 625, 948, 989, 538, 219, 1460, 93, 394, 59,
    580, 653, 1182, 1419, 1020, 1789, 1794, 103, 696, 451, 390, 19, 872, 621, 858, 717],
  [140, 73, 1882, 111, 360, 175, 450, 953, 56, 249, 58, 125, 724, 633, 298, 387,
    976, 987, 490, 1027, 1156, 1217, 402, 1055, 412, 689, 842, 1161, 1172, 815, 338, 247],
  [1080, 1555, 406, 187, 92, 207, 1270, 859, 600, 367, 830, 115, 1296, 881, 158, 1533,
    1564, 1885, 998, 1019, 1596, 907, 578, 785, 2016, 1539, 958, 1325, 1468, 171, 1150, 1035],
  [1512, 779, 410, 373, 892, 77, 1322, 1529, 1056, 223, 1802, 375, 688, 1209, 1018, 411,
    292, 343, 18, 361, 268, 771, 918, 805, 652, 1057, 614, 419, 1812, 35, 1266, 1617],
  [16, 81, 786, 595, 676, 271, 970, 683, 1104, 819, 618, 897, 296, 1115, 686, 651,
    1392, 631, 1326, 1121, 740, 769, 1138, 45, 692, 491, 6, 877, 1400, 85, 1478, 969],
  [560, 201, 106, 1401, 1732, 151, 314, 755, 212, 561, 1058, 1785, 1480, 1757, 1234, 197,
    508, 325, 82, 1449, 368, 321, 30, 1183, 28, 351, 690, 501, 536, 1573, 378, 15],
  [328, 1869, 198, 659, 1268, 1351, 266, 1261, 1972, 369, 630, 243, 492, 821, 286, 763,
    4, 509, 906, 1147, 1376, 571, 602, 109, 888, 1725, 1614, 789, 1720, 813, 46, 473],
  [1448, 691, 302, 663, 96, 241, 766, 1141, 316, 441, 22, 2007, 1648, 933, 1094, 1181,
    1772, 155, 130, 389, 1560, 169, 1386, 303, 1752, 927, 1242, 547, 1052, 613, 186, 1545],
  [1396, 1301, 718, 723, 200, 61, 306, 1825, 532, 91, 898, 475, 1212, 1515, 1382, 1089,
    1048, 909, 1202, 1675, 868, 123, 174, 173, 40, 707, 290, 275, 60, 1699, 1342, 973],
  [1192, 329, 90, 1709, 416, 431, 1258, 1907, 456, 505, 162, 381, 732, 55, 1466, 643,
    960, 1243, 746, 1283, 1008, 1473, 462, 1311, 76, 945, 374, 1417, 1328, 1071, 934, 2033],
  [736, 1811, 1402, 443, 660, 149, 610, 1169, 784, 623, 246, 371, 596, 239, 498, 639,
    1504, 791, 10, 1275, 1920, 1163, 806, 1041, 1016, 41, 1302, 43, 1068, 209, 54, 1291],
  [1108, 1347, 190, 629, 1148, 75, 554, 2009, 1632, 479, 738, 1111, 884, 119, 834, 193,
    940, 599, 1618, 617, 524, 1081, 1038, 1061, 24, 31, 370, 675, 352, 709, 342, 1223],
  [708, 337, 1574, 851, 1240, 147, 86, 939, 1380, 1075, 2, 127, 48, 1371, 486, 1309,
    404, 189, 494, 1377, 436, 1025, 838, 301, 800, 747, 1286, 107, 768, 341, 1074, 1225],
  [428, 457, 1798, 1657, 244, 1063, 1346, 1011, 440, 817, 38, 183, 568, 2013, 1022, 453,
    1088, 581, 1594, 1465, 1816, 63, 1298, 101, 712, 607, 678, 757, 1184, 1829, 478, 1867],
  [944, 263, 278, 915, 996, 1607, 226, 1517, 116, 1079, 966, 25, 932, 1077, 474, 349,
    276, 765, 862, 1403, 956, 827, 178, 365, 620, 1981, 70, 1957, 1196, 1069, 662, 729],
  [216, 947, 1582, 221, 1928, 497, 694, 1397, 176, 697, 1886, 281, 1804, 9, 466, 1437,
    1084, 847, 426, 645, 1828, 425, 926, 559, 304, 743, 666, 803, 1740, 869, 1062, 1801],
  [1160, 1507, 1082, 979, 856, 317, 34, 2043, 876, 347, 1250, 731, 168, 1771, 1134, 1345,
    1092, 1165, 1694, 177, 80, 379, 310, 429, 1208, 1697, 902, 531, 236, 1955, 1370, 1229],
  [1552, 585, 366, 1965, 752, 687, 962, 437, 1944, 761, 566, 637, 1236, 311, 810, 899,
    1524, 1, 62, 1271, 1064, 191, 914, 229, 2020, 1201, 1354, 13, 8, 1327, 850, 971],
  [380, 57, 1314, 699, 604, 405, 1782, 1425, 284, 879, 1158, 153, 488, 495, 670, 895,
    496, 1047, 818, 1531, 400, 1179, 1974, 143, 1224, 297, 322, 1123, 1980, 465, 258, 1547],
  [0, 1603, 922, 51, 464, 331, 126, 1715, 452, 735, 1566, 1367, 1200, 1945, 142, 449,
    804, 157, 530, 873, 780, 1337, 122, 1317, 1164, 287, 1626, 931, 1712, 965, 1778, 1479],
  [2004, 593, 1674, 121, 112, 1649, 414, 1195, 52, 1331, 1130, 69, 808, 129, 1198, 1565,
    1904, 1307, 1838, 1633, 280, 1281, 102, 1851, 44, 1003, 1806, 363, 1076, 597, 1962, 1481],
  [148, 713, 66, 1913, 376, 1319, 826, 1267, 1440, 1073, 1570, 439, 1992, 919, 1746, 3,
    616, 837, 594, 1721, 880, 5, 1046, 1579, 540, 863, 942, 1013, 1876, 99, 890, 333],
  [840, 519, 710, 1171, 1780, 1863, 778, 1773, 1488, 1335, 218, 215, 128, 1233, 642, 605,
    516, 1021, 94, 1659, 1888, 97, 110, 417, 1532, 887, 698, 1503, 628, 1887, 558, 985],
  [1960, 1203, 814, 477, 184, 753, 386, 1653, 144, 1973, 534, 537, 156, 265, 234, 27,
    384, 1103, 1246, 901, 476, 681, 446, 1413, 1956, 999, 1754, 1059, 1428, 1125, 78, 227],
  [796, 1763, 1230, 1933, 1360, 573, 282, 1149, 1044, 603, 1410, 1935, 1724, 2027, 138, 1601,
    1996, 1421, 422, 433, 1604, 635, 1858, 2017, 552, 1953, 802, 787, 312, 1637, 194, 203],
  [192, 841, 1578, 359, 324, 943, 1770, 693, 968, 1017, 674, 893, 1244, 567, 334, 1155,
    228, 255, 1358, 1527, 1520, 2041, 146, 767, 588, 959, 886, 269, 1840, 245, 1446, 1227],
  [388, 313, 14, 955, 1908, 83, 1122, 1681, 1636, 1135, 346, 409, 1464, 751, 1010, 1151,
    132, 1303, 522, 1787, 1916, 1435, 330, 1353, 1528, 553, 1814, 1379, 448, 79, 1222, 49],
  [1276, 1859, 702, 307, 1660, 587, 1422, 1971, 332, 991, 150, 1623, 1112, 627, 1442, 705,
    1452, 413, 1166, 1129, 32, 1593, 1238, 1541, 548, 543, 358, 1187, 864, 1221, 206, 1735],
  [1220, 849, 74, 1037, 1728, 1905, 598, 1451, 408, 89, 514, 1039, 1852, 385, 1518, 1821,
    12, 1563, 1006, 95, 2024, 1537, 1350, 445, 1312, 17, 170, 619, 1280, 853, 1586, 1737],
  [320, 975, 658, 1107, 756, 1575, 118, 1523, 252, 1329, 1126, 695, 1372, 1175, 1534, 259,
    1600, 1093, 1622, 1977, 1252, 67, 1810, 1835, 204, 1119, 1190, 1269, 68, 137, 990, 589],
  [1456, 775, 1482, 1427, 1508, 521, 750, 2029, 104, 1591, 1426, 471, 1836, 1489, 986, 861,
    788, 1277, 1086, 1915, 272, 353, 1178, 673, 1132, 1143, 582, 1759, 64, 1889, 1174, 1241],
  [728, 1459, 114, 733, 1556, 1009, 1206, 1909, 1248, 1519, 1902, 793, 196, 71, 978, 283,
    1232, 1359, 938, 1157, 1792, 937, 1438, 1669, 816, 1255, 430, 1321, 480, 1381, 1418, 483],
  [1672, 2019, 1254, 327, 1368, 829, 546, 1405, 1388, 1133, 1762, 1297, 680, 237, 1646, 1857,
    248, 1677, 1538, 1729, 592, 1961, 822, 1211, 1936, 2045, 1378, 1043, 748, 1893, 1846, 459],
  [188, 135, 878, 615, 1264, 1199, 1926, 949, 1892, 1273, 1078, 251, 1748, 1881, 2042, 1411,
    2036, 911, 574, 1783, 1576, 1235, 1430, 1023, 704, 1215, 2046, 525, 520, 1219, 1362, 1483],
  [1584, 1741, 1826, 225, 1116, 339, 1474, 1937, 240, 53, 1670, 665, 1000, 1007, 894, 1407,
    1800, 1559, 1330, 33, 912, 1691, 1922, 1609, 1736, 1597, 714, 1635, 1912, 21, 770, 305],
  [36, 261, 1434, 563, 1684, 917, 638, 2037, 120, 1247, 586, 1879, 136, 883, 654, 961,
    88, 669, 42, 167, 1868, 1849, 634, 1797, 160, 799, 1526, 1873, 1500, 1477, 1710, 1991],
  [624, 1105, 1894, 1293, 468, 843, 2014, 1707, 1004, 345, 1642, 1295, 1320, 641, 242, 727,
    1436, 1819, 1562, 1343, 220, 1793, 706, 701, 556, 273, 1146, 875, 1588, 1415, 1030, 7],
  [828, 1231, 1790, 1363, 772, 1831, 1338, 1779, 1952, 1585, 214, 1627, 460, 1431, 782, 515,
    1128, 1349, 854, 213, 1420, 323, 1558, 1581, 664, 37, 1454, 1525, 2032, 393, 1866, 845],
  [1352, 1031, 362, 1683, 528, 777, 1290, 423, 2000, 1847, 50, 29, 640, 1745, 1154, 1117,
    1028, 1409, 606, 161, 1612, 609, 622, 929, 2044, 1399, 1210, 2015, 1140, 1083, 1730, 1497],
  [1204, 1513, 2002, 295, 836, 1265, 210, 1455, 656, 1775, 250, 1049, 668, 141, 470, 65,
    896, 1615, 1758, 195, 972, 1193, 1738, 1925, 1384, 1511, 1142, 1577, 1940, 163, 274, 739],
  [1308, 1189, 1742, 583, 1872, 1085, 794, 1661, 392, 1389, 438, 1553, 632, 493, 1002, 539,
    852, 139, 458, 1985, 1696, 1923, 1470, 1467, 172, 951, 442, 1299, 824, 1439, 502, 1639],
  [1024, 205, 134, 871, 504, 117, 318, 1205, 264, 1713, 1186, 1113, 1756, 1587, 846, 1749,
    964, 1167, 1870, 2039, 340, 1491, 262, 1279, 1100, 1471, 1398, 11, 2008, 1475, 1958, 1739],
  [124, 1997, 526, 481, 1168, 455, 1458, 1387, 832, 309, 1834, 921, 1976, 1263, 1522, 1663,
    644, 1815, 1774, 289, 1592, 1947, 1194, 1865, 1848, 1853, 506, 1891, 1988, 277, 1734, 1897],
  [1788, 517, 1214, 1447, 180, 1173, 1934, 1583, 844, 165, 1830, 1177, 1624, 1139, 1954, 1813,
    1964, 2021, 1678, 235, 544, 1109, 1750, 319, 1060, 2047, 870, 299, 1580, 1733, 994, 1673],
  [1796, 1361, 1118, 1549, 300, 1099, 1110, 1963, 920, 23, 398, 1551, 1272, 401, 2030, 983,
    984, 1693, 1818, 1599, 500, 1499, 1862, 957, 1824, 529, 510, 1799, 1608, 1671, 294, 1941],
  [100, 1487, 1170, 1619, 232, 233, 1486, 2035, 336, 1841, 1638, 1883, 1884, 1687, 1546, 1877,
    356, 1605, 418, 469, 1764, 579, 650, 1837, 716, 293, 1918, 1781, 1256, 649, 1502, 1101],
  [1968, 1287, 1994, 1939, 512, 1033, 1262, 679, 208, 889, 1938, 285, 1704, 2001, 1498, 1373,
    1300, 1665, 1598, 159, 1856, 865, 1690, 1185, 256, 1655, 1494, 993, 576, 1339, 1686, 1001],
  [1324, 1769, 626, 551, 432, 1521, 26, 1711, 1760, 2031, 758, 1305, 1120, 1817, 326, 1509,
    1744, 1871, 254, 1719, 1644, 1237, 1950, 447, 1700, 1767, 1090, 1833, 992, 1067, 1930, 995],
  [396, 1445, 1766, 839, 1688, 1341, 1906, 1917, 1900, 1645, 734, 1809, 364, 749, 1114, 795,
    744, 395, 382, 667, 2028, 1861, 1602, 1723, 2040, 1207, 1890, 903, 1260, 1695, 1662, 1895],
  [700, 461, 1334, 1127, 1776, 1385, 590, 1461, 1708, 1969, 1590, 1369, 928, 1843, 866, 2005,
    1808, 1423, 1102, 569, 1332, 1747, 1942, 1535, 1216, 1727, 682, 267, 1032, 1731, 434, 1995],
  [860, 391, 542, 737, 1152, 711, 1986, 1643, 84, 1197, 1042, 87, 1124, 181, 1406, 1919,
    916, 601, 1842, 545, 720, 797, 1278, 1315, 1620, 759, 1226, 1375, 288, 1505, 1282, 835],
  [612, 773, 1898, 1703, 1072, 1429, 1106, 1839, 1692, 421, 1098, 1433, 1924, 1395, 1878, 335,
    1096, 1567, 1274, 741, 1864, 1365, 2006, 575, 672, 257, 2038, 555, 2012, 1989, 1946, 1929],
  [1136, 611, 882, 1805, 72, 1355, 1510, 685, 1516, 279, 1990, 1807, 1832, 657, 754, 1239,
    1948, 1949, 1718, 1855, 20, 1755, 1218, 1213, 1036, 1827, 1658, 1993, 1616, 1927, 1542, 463],
  [1340, 1743, 1450, 1875, 1284, 489, 1850, 1589, 908, 1803, 726, 1245, 224, 1943, 1294, 399,
    1640, 131, 1366, 725, 1932, 105, 1634, 231, 1176, 549, 1966, 179, 1880, 905, 1318, 1357],
  [1860, 1543, 874, 1393, 1040, 1289, 1610, 935, 1404, 1145, 562, 977, 164, 427, 1666, 1629,
    1984, 1921, 98, 415, 584, 833, 166, 1441, 260, 1911, 1722, 1249, 1652, 1595, 1854, 1257],
  [1716, 2025, 1914, 807, 1348, 1777, 722, 1967, 372, 1137, 946, 1561, 1180, 499, 982, 1765,
    1408, 721, 1034, 1975, 1484, 1493, 1702, 703, 1896, 2023, 1654, 1795, 152, 1323, 1394, 1251],
  [1820, 1701, 482, 1095, 764, 1903, 1306, 823, 1656, 1901, 1606, 1259, 1144, 1005, 1514, 1051,
    1364, 1751, 2022, 923, 1676, 383, 1982, 1979, 1416, 1463, 954, 1159, 1336, 1951, 1014, 809],
  [1536, 1065, 646, 1383, 1412, 1641, 1554, 1717, 776, 1931, 2018, 1625, 792, 885, 1786, 527,
    1476, 1679, 1978, 825, 1288, 2003, 774, 1791, 936, 1983, 1462, 523, 1188, 1987, 1714, 1485],
  [636, 647, 1822, 1647, 1680, 967, 1970, 1899, 1344, 1453, 1414, 1313, 1540, 1569, 2034, 1153,
    1844, 857, 730, 801, 1668, 1053, 1706, 1571, 900, 1015, 1698, 1631, 1568, 1761, 1874, 1091],
  [952, 1029, 1726, 1959, 1548, 1685, 762, 1457, 1356, 1391, 238, 1689, 1316, 1651, 202, 591,
    564, 1823, 1530, 997, 472, 1621, 1310, 831, 1572, 513, 2026, 811, 424, 511, 1506, 355],
  [608, 867, 1630, 199, 812, 1611, 1026, 941, 348, 1191, 910, 145, 1784, 913, 2010, 1495,
    1496, 855, 950, 577, 1012, 2011, 1490, 1469, 1544, 485, 742, 1443, 980, 1097, 974, 719],
  [1664, 1999, 1682, 661, 1492, 745, 1998, 1845, 1304, 781, 1650, 1501, 1432, 1753, 230, 655,
    904, 783, 930, 981, 1472, 1253, 1162, 487, 848, 1087, 1066, 963, 1768, 1285, 1054, 1613]]

set_option maxRecDepth 100000 in
/-- The order of the random numbers: the indices from the least one to the greatest, in rows of 32. -/
def orderRows : List (List Nat) := [
  [1637, 2041, 2045, 516, 1129, 668, 1071, 374, 466, 1227, 110, 1570, 202, 102, 608, 460,
    834, 676, 207, 1822, 1670, 2, 341, 744, 1086, 1032, 1471, 1017, 919, 1712, 299, 136],
  [1976, 333, 1164, 1603, 635, 1616, 1342, 290, 1563, 124, 812, 1031, 578, 789, 66, 2019,
    2027, 1702, 287, 165, 1261, 1803, 391, 1991, 1191, 1782, 428, 239, 1740, 2017, 951, 8],
  [1130, 1374, 1069, 127, 1351, 634, 384, 1378, 51, 1260, 132, 1402, 1148, 1931, 1304, 1937,
    593, 971, 1865, 95, 1091, 1238, 530, 405, 688, 621, 317, 1876, 1916, 1121, 1934, 1341],
  [162, 547, 1757, 1054, 1893, 1941, 1025, 146, 1853, 55, 1349, 1414, 858, 1821, 1444, 1080,
    1431, 963, 1073, 1631, 1222, 806, 378, 1312, 579, 581, 1346, 548, 959, 775, 2015, 67],
  [683, 1519, 1933, 1217, 1259, 19, 1376, 1538, 1971, 339, 957, 1362, 814, 1989, 1357, 672,
    657, 889, 1792, 583, 1194, 686, 950, 600, 1856, 498, 1671, 186, 235, 352, 82, 1886],
  [1187, 1651, 1004, 150, 2043, 757, 1074, 1964, 1401, 827, 524, 2034, 1280, 561, 1767, 1681,
    1271, 1677, 680, 627, 901, 1700, 1871, 1888, 57, 808, 1951, 1776, 392, 35, 1581, 1756],
  [628, 1744, 1978, 1428, 1521, 624, 4, 1741, 277, 254, 1623, 843, 1557, 790, 83, 1620,
    1664, 1667, 663, 1228, 788, 1505, 1339, 1093, 7, 1586, 442, 260, 1857, 1977, 1077, 601],
  [440, 1338, 366, 1846, 407, 1156, 917, 1880, 748, 414, 323, 1365, 665, 471, 128, 1284,
    1254, 381, 126, 197, 791, 85, 147, 982, 998, 1945, 679, 1263, 1491, 1755, 2042, 826],
  [1860, 1573, 798, 1575, 706, 2006, 1761, 792, 783, 1801, 1655, 464, 1814, 22, 810, 1526,
    1716, 1549, 1692, 400, 187, 701, 1952, 2005, 1720, 543, 1588, 1592, 1993, 1633, 1962, 1912],
  [1410, 399, 1288, 360, 1307, 1660, 1746, 1223, 1014, 2018, 1436, 1232, 941, 1413, 1735, 1079,
    993, 1949, 2028, 112, 1883, 81, 1693, 1010, 946, 1954, 2012, 1535, 467, 488, 144, 1593],
  [105, 1370, 609, 1081, 149, 909, 515, 1908, 26, 167, 742, 1764, 796, 143, 1628, 915,
    1584, 566, 804, 1087, 1453, 481, 1640, 555, 713, 1614, 1788, 348, 868, 1674, 1248, 1528],
  [822, 544, 821, 1547, 1409, 594, 1723, 211, 987, 1286, 1894, 1094, 12, 1237, 1694, 1265,
    819, 48, 815, 198, 1859, 1002, 364, 2033, 675, 1572, 1959, 227, 499, 1745, 1368, 1013],
  [925, 918, 1829, 434, 242, 1445, 1794, 1052, 1781, 514, 1493, 184, 356, 648, 1738, 527,
    2030, 206, 120, 1653, 1730, 159, 2024, 501, 310, 943, 1229, 221, 838, 21, 1220, 964],
  [541, 1112, 602, 1707, 1739, 1507, 780, 411, 1852, 1180, 509, 359, 406, 825, 1771, 1972,
    741, 1423, 63, 1335, 986, 1313, 265, 908, 631, 937, 1579, 1256, 1805, 203, 170, 736],
  [1932, 539, 633, 343, 1564, 1035, 338, 1300, 1101, 1827, 480, 1571, 111, 1734, 1055, 263,
    490, 887, 177, 1878, 878, 1427, 1608, 1662, 1884, 1104, 1968, 322, 121, 424, 353, 953],
  [859, 259, 196, 201, 684, 705, 1056, 1958, 247, 619, 1558, 1406, 1832, 1323, 703, 1209,
    1943, 1273, 246, 1141, 1459, 1155, 1198, 385, 1784, 1537, 118, 389, 500, 1122, 1377, 1994],
  [1131, 582, 1066, 420, 24, 1612, 473, 568, 1754, 1747, 59, 985, 1926, 316, 1494, 1165,
    1539, 503, 575, 1240, 1344, 610, 1126, 222, 1295, 1215, 80, 1515, 989, 1842, 234, 305],
  [139, 1866, 935, 1769, 928, 1152, 1426, 664, 854, 9, 145, 1430, 1596, 1864, 1157, 268,
    1076, 1486, 1728, 606, 1729, 1174, 1128, 1072, 1303, 745, 1697, 599, 2002, 1340, 1216, 1825],
  [961, 1737, 797, 77, 298, 942, 1901, 510, 62, 1383, 1140, 1940, 1036, 1045, 185, 1890,
    1895, 696, 1179, 456, 169, 2008, 1022, 999, 1181, 1118, 1589, 1161, 1562, 647, 1598, 911],
  [923, 1534, 771, 521, 550, 817, 906, 2046, 417, 485, 1446, 551, 42, 833, 649, 784,
    1921, 1496, 232, 349, 774, 1018, 304, 416, 1115, 1922, 1672, 667, 712, 1050, 1552, 620],
  [535, 622, 1358, 285, 104, 511, 1170, 377, 1242, 96, 1713, 900, 1509, 1123, 746, 45,
    738, 576, 1906, 1485, 877, 907, 1919, 1403, 692, 636, 1787, 1400, 823, 1468, 291, 431],
  [1826, 577, 992, 895, 191, 1831, 439, 1903, 1717, 453, 1506, 632, 933, 764, 243, 362,
    1315, 1207, 1306, 1439, 219, 1176, 1290, 733, 1048, 574, 537, 1492, 1153, 1219, 1363, 346],
  [1308, 1425, 1192, 1508, 1347, 72, 1924, 1011, 1957, 161, 528, 361, 811, 1796, 1092, 1907,
    47, 2010, 747, 2044, 1824, 452, 1815, 1369, 1715, 1102, 857, 395, 31, 969, 1147, 2016],
  [1980, 1109, 272, 1404, 1107, 1566, 133, 1319, 727, 1533, 1373, 1999, 654, 174, 393, 1278,
    404, 18, 1913, 1625, 952, 281, 716, 591, 580, 1892, 256, 1277, 803, 1360, 1955, 44],
  [278, 1656, 306, 2004, 436, 1285, 1504, 1023, 1336, 588, 666, 884, 829, 1099, 1033, 462,
    188, 856, 2040, 1103, 795, 662, 1877, 772, 2013, 1602, 220, 1861, 1875, 1345, 979, 1204],
  [125, 611, 689, 1791, 865, 1113, 691, 160, 699, 1270, 1144, 1953, 729, 970, 603, 1777,
    283, 1132, 1326, 1607, 947, 529, 1806, 2003, 408, 379, 1920, 1695, 1727, 1684, 1858, 2001],
  [960, 166, 1456, 1900, 1047, 695, 1532, 1998, 172, 1299, 315, 1929, 1005, 1455, 3, 618,
    388, 451, 1462, 25, 1189, 553, 1503, 1314, 1135, 1201, 1502, 903, 1075, 525, 1587, 988],
  [1750, 1476, 39, 704, 1621, 765, 1811, 545, 1938, 1059, 318, 472, 1435, 1276, 497, 1816,
    1177, 107, 1666, 852, 20, 1111, 487, 717, 1021, 1992, 1258, 300, 1252, 975, 653, 874],
  [446, 1897, 725, 1722, 1682, 1580, 1930, 402, 1843, 1475, 1600, 117, 1838, 1268, 890, 245,
    1925, 1899, 1786, 1808, 1597, 1711, 1778, 756, 1639, 1311, 1687, 1463, 1873, 1752, 1137, 1333],
  [319, 1772, 152, 707, 1397, 1039, 776, 1070, 721, 469, 1429, 1960, 1331, 2021, 645, 302,
    1643, 793, 948, 1862, 1234, 1665, 329, 1618, 1849, 1327, 53, 1281, 1329, 1498, 1642, 1193],
  [1003, 1264, 617, 1556, 700, 228, 74, 1731, 669, 423, 14, 351, 1190, 1133, 1830, 135,
    1942, 0, 659, 1163, 1732, 412, 977, 885, 1405, 1398, 637, 1904, 1393, 1195, 1658, 1060],
  [2014, 1820, 958, 1134, 158, 173, 1774, 297, 1646, 1851, 1396, 1885, 766, 1650, 1719, 1704,
    1902, 1911, 896, 1262, 375, 108, 189, 1000, 365, 1450, 929, 240, 334, 1522, 1221, 813],
  [79, 1530, 216, 1544, 870, 1114, 1854, 483, 1798, 97, 435, 549, 1545, 1524, 1613, 156,
    403, 1622, 1298, 10, 29, 363, 1751, 1804, 1915, 1501, 596, 1159, 565, 1668, 1657, 1343],
  [641, 519, 2037, 1255, 1833, 255, 872, 2032, 1353, 226, 781, 1287, 1272, 643, 1762, 178,
    586, 1956, 2025, 1366, 1009, 876, 340, 1582, 1447, 269, 271, 1394, 1795, 1225, 723, 233],
  [1441, 231, 1690, 1231, 1611, 292, 1783, 754, 1186, 1125, 1773, 342, 28, 1896, 461, 840,
    261, 658, 1149, 972, 1325, 331, 1615, 1648, 660, 1789, 1870, 1708, 1918, 1680, 730, 2020],
  [690, 492, 787, 1309, 1779, 1034, 1898, 1257, 312, 1950, 1243, 1661, 685, 1449, 1392, 1239,
    902, 847, 990, 109, 944, 1061, 248, 89, 6, 386, 542, 1098, 1026, 850, 1836, 1440],
  [330, 212, 88, 1881, 383, 1753, 1793, 1419, 1097, 345, 824, 1987, 419, 844, 517, 142,
    249, 1760, 1629, 355, 1647, 1380, 1184, 1944, 590, 1689, 1721, 1015, 1399, 101, 1652, 1990],
  [1855, 1983, 398, 1173, 719, 851, 767, 893, 2022, 213, 910, 892, 630, 807, 458, 1553,
    1879, 237, 337, 962, 1975, 1212, 1610, 1230, 1523, 1847, 778, 905, 552, 1454, 735, 1799],
  [1168, 1705, 1555, 154, 750, 1947, 1388, 64, 106, 1407, 1673, 1294, 264, 1443, 886, 531,
    1654, 1770, 506, 1442, 1542, 179, 1905, 491, 115, 141, 1389, 1417, 1698, 181, 1320, 867],
  [871, 1205, 1478, 1466, 1253, 437, 1411, 225, 860, 1554, 1266, 1775, 538, 751, 945, 1546,
    69, 1364, 731, 1316, 1567, 182, 997, 881, 251, 921, 558, 1095, 208, 2011, 1105, 518],
  [293, 955, 1020, 190, 794, 486, 137, 1084, 973, 307, 60, 1289, 1569, 1245, 1516, 567,
    1785, 1062, 1996, 276, 560, 563, 739, 1372, 336, 1868, 891, 763, 1525, 1909, 626, 1305],
  [927, 1030, 607, 1609, 540, 2009, 1297, 474, 1318, 1119, 1531, 1384, 1963, 1541, 932, 981,
    1143, 496, 199, 479, 433, 23, 1688, 968, 861, 828, 863, 571, 873, 1706, 1619, 846],
  [1984, 455, 1867, 1203, 1016, 418, 1395, 711, 153, 1699, 777, 841, 1627, 1110, 1869, 123,
    347, 1585, 1218, 1044, 2029, 670, 17, 978, 1197, 1591, 1997, 454, 1809, 1543, 1910, 1736],
  [585, 432, 194, 1274, 1513, 438, 830, 157, 50, 54, 288, 1067, 282, 1464, 286, 1269,
    1882, 785, 1974, 1322, 32, 324, 465, 642, 1659, 1969, 616, 1385, 674, 148, 87, 1536],
  [1169, 1296, 1800, 570, 13, 2047, 715, 332, 1352, 344, 1626, 940, 2038, 849, 2039, 1461,
    1606, 100, 1415, 1480, 192, 1577, 1483, 1142, 584, 1742, 266, 1473, 724, 1850, 253, 380],
  [1178, 1024, 1007, 1202, 782, 1390, 183, 984, 693, 1982, 1379, 1583, 1206, 58, 1517, 429,
    270, 1053, 1939, 477, 1302, 373, 1514, 1590, 554, 1946, 1452, 325, 652, 1420, 1973, 236],
  [138, 326, 926, 681, 1527, 175, 103, 1041, 475, 995, 1675, 1433, 450, 1199, 1574, 94,
    924, 710, 1995, 502, 1819, 1472, 368, 327, 722, 749, 1663, 613, 894, 1725, 1038, 882],
  [1171, 2023, 447, 1644, 1724, 1488, 920, 1835, 1961, 1551, 224, 1489, 836, 1497, 1766, 16,
    1127, 280, 470, 448, 1282, 1810, 1434, 671, 335, 864, 1324, 1469, 1511, 1375, 1167, 1283],
  [572, 912, 296, 1422, 1601, 1085, 168, 494, 1162, 314, 390, 1484, 1211, 1887, 1495, 1758,
    1540, 646, 1, 5, 371, 1460, 1082, 816, 734, 217, 1965, 1790, 1371, 49, 1841, 294],
  [43, 1293, 1529, 1979, 801, 1490, 482, 38, 718, 229, 1458, 1630, 350, 2026, 930, 1840,
    274, 27, 241, 1780, 495, 1117, 1797, 938, 1367, 301, 421, 1043, 176, 308, 425, 273],
  [805, 56, 1605, 1337, 258, 1387, 1432, 244, 1172, 1158, 164, 1641, 205, 556, 967, 883,
    1188, 238, 1874, 34, 459, 922, 557, 598, 1510, 1759, 71, 1027, 523, 427, 504, 320],
  [1518, 976, 1042, 505, 1481, 1001, 916, 1183, 875, 1200, 687, 983, 656, 1872, 1845, 1350,
    1068, 879, 1701, 708, 758, 831, 1686, 463, 449, 1138, 195, 78, 1477, 468, 536, 396],
  [1844, 615, 569, 1090, 313, 493, 1355, 275, 204, 476, 1334, 1749, 1948, 1839, 1418, 267,
    354, 1927, 1548, 1691, 1499, 61, 1635, 996, 1649, 655, 1863, 534, 980, 1166, 612, 755],
  [90, 837, 1249, 1709, 897, 677, 589, 800, 367, 714, 1645, 1236, 697, 956, 76, 1891,
    328, 1669, 625, 820, 1818, 762, 1386, 193, 522, 1966, 1151, 832, 1512, 799, 1438, 372],
  [1828, 457, 1634, 84, 1154, 1576, 1889, 409, 1917, 11, 1914, 786, 1049, 1823, 1332, 1078,
    595, 869, 1247, 702, 230, 1683, 768, 1636, 1100, 410, 1244, 1046, 2036, 1233, 573, 520],
  [444, 845, 478, 1251, 1029, 1743, 1560, 30, 1703, 698, 1718, 587, 1279, 93, 605, 92,
    279, 1381, 1421, 1275, 65, 1083, 740, 1451, 257, 994, 1837, 564, 289, 1500, 387, 1120],
  [1696, 155, 1617, 1834, 1348, 1817, 866, 1356, 604, 546, 1354, 1124, 122, 1040, 513, 1028,
    1936, 1235, 809, 1063, 779, 1416, 1467, 1568, 91, 709, 98, 1224, 131, 1813, 401, 934],
  [1213, 2031, 559, 1182, 1328, 1267, 1321, 441, 218, 526, 1064, 1923, 1676, 1136, 1594, 321,
    898, 86, 1763, 1382, 1226, 1559, 965, 2035, 252, 1928, 1246, 726, 1470, 761, 769, 262],
  [1935, 119, 1710, 52, 1146, 1765, 311, 1679, 507, 1479, 210, 489, 134, 1019, 130, 650,
    1685, 1037, 70, 638, 1437, 394, 40, 1310, 770, 370, 1807, 939, 936, 1139, 151, 1108],
  [382, 597, 1330, 862, 1599, 1604, 1561, 2000, 678, 752, 1632, 73, 562, 899, 1986, 1678,
    36, 140, 1726, 888, 682, 1967, 694, 1595, 974, 1408, 614, 954, 760, 443, 1550, 991],
  [1088, 639, 1208, 914, 1565, 904, 732, 1150, 640, 1301, 41, 1457, 129, 728, 1175, 1291,
    1058, 1196, 1089, 880, 397, 512, 1520, 1482, 1214, 1487, 1292, 1733, 1624, 200, 215, 913],
  [1768, 284, 484, 114, 818, 415, 2007, 1317, 15, 171, 773, 1185, 1006, 426, 644, 1391,
    966, 1802, 376, 1012, 113, 33, 1160, 295, 250, 180, 1361, 842, 1412, 753, 1714, 508],
  [1106, 1981, 430, 163, 309, 116, 532, 1057, 623, 1970, 1424, 75, 422, 1116, 737, 1051,
    802, 949, 1210, 1748, 1096, 848, 855, 673, 1145, 214, 303, 1465, 743, 46, 1812, 1474],
  [223, 358, 592, 661, 931, 1638, 1985, 1988, 37, 835, 1448, 720, 1848, 209, 357, 369,
    445, 1250, 68, 1065, 651, 1008, 1241, 629, 759, 1578, 533, 1359, 99, 413, 839, 853]]

set_option maxRecDepth 100000 in
/-- The places of the random numbers in their order, in rows of 32. -/
def rankRows : List (List Nat) := [
  [977, 1554, 21, 846, 198, 1555, 1144, 216, 63, 553, 1043, 1737, 364, 1412, 970, 1960,
    1519, 1366, 753, 133, 884, 413, 269, 1333, 516, 851, 328, 1585, 1100, 1044, 1767, 732],
  [1396, 1973, 1619, 189, 1904, 2024, 1575, 866, 1878, 1930, 620, 1568, 767, 655, 2013, 720,
    369, 1565, 1384, 72, 1859, 954, 1385, 105, 1601, 184, 1453, 522, 1290, 1685, 584, 434],
  [1223, 1780, 46, 127, 2034, 1264, 1874, 1626, 709, 1899, 966, 1995, 1710, 579, 1659, 1024,
    538, 309, 158, 206, 1731, 245, 1841, 1406, 1154, 1143, 1696, 1816, 1775, 1773, 1487, 83],
  [649, 1033, 1818, 2044, 1425, 1181, 13, 1478, 644, 320, 1224, 881, 1013, 1139, 10, 460,
    307, 1972, 1955, 1240, 1989, 907, 506, 1857, 402, 476, 1804, 1359, 41, 800, 242, 67],
  [238, 1932, 1870, 1820, 74, 742, 1868, 975, 31, 1286, 1472, 544, 1905, 1241, 1167, 333,
    318, 554, 103, 246, 1405, 324, 163, 1886, 930, 1352, 1219, 1793, 1039, 1383, 996, 405],
  [807, 713, 96, 1987, 1610, 51, 833, 329, 1542, 596, 446, 1961, 840, 997, 749, 1477,
    1596, 466, 1071, 1237, 1977, 1245, 1269, 1446, 395, 590, 155, 276, 784, 1014, 1283, 676],
  [1428, 1719, 1378, 1658, 482, 243, 371, 1330, 1949, 483, 12, 445, 1672, 1612, 401, 18,
    1276, 2029, 1866, 359, 1153, 1193, 2009, 1950, 1026, 1561, 1832, 692, 794, 411, 535, 2016],
  [1514, 1255, 1065, 379, 965, 1577, 1748, 1089, 626, 1087, 542, 156, 1471, 1201, 1617, 59,
    1019, 1586, 388, 686, 1607, 911, 498, 488, 1142, 1168, 1976, 1272, 1848, 1438, 201, 1061],
  [762, 1784, 1604, 481, 219, 1104, 1855, 463, 1228, 438, 1434, 1679, 559, 1081, 1456, 1082,
    738, 1599, 1584, 1671, 1299, 200, 768, 1776, 1521, 757, 1388, 816, 1953, 643, 1390, 50],
  [1386, 1788, 39, 670, 1093, 1280, 1567, 1975, 1538, 999, 580, 30, 891, 1593, 943, 2010,
    630, 543, 770, 1289, 1597, 1988, 408, 1862, 1128, 1668, 1545, 842, 525, 90, 874, 928],
  [1631, 1839, 475, 234, 1397, 1467, 1473, 1495, 1712, 950, 1152, 1109, 1415, 33, 1020, 1528,
    1304, 1202, 454, 137, 1078, 22, 1099, 451, 1417, 1161, 703, 1360, 347, 627, 1580, 971],
  [157, 478, 1680, 1171, 396, 2030, 2017, 427, 291, 715, 687, 1045, 374, 1016, 226, 1704,
    1494, 2031, 1881, 1556, 1727, 1461, 7, 1012, 1970, 647, 118, 825, 1439, 241, 1888, 1156],
  [70, 503, 1145, 1790, 848, 507, 1546, 54, 188, 750, 1877, 731, 1663, 1940, 1186, 289,
    275, 1822, 903, 1040, 752, 87, 428, 228, 824, 1735, 1753, 423, 981, 2045, 233, 1957],
  [631, 616, 1349, 1164, 515, 1594, 1996, 969, 477, 1598, 1965, 1629, 58, 1455, 1986, 671,
    1377, 1332, 387, 1034, 772, 1253, 1381, 678, 224, 1831, 218, 1917, 1760, 2032, 896, 1506],
  [1523, 1656, 1484, 849, 725, 681, 1371, 1345, 595, 1729, 1198, 1620, 15, 1102, 783, 1655,
    267, 1398, 8, 316, 1661, 937, 1522, 237, 875, 518, 1319, 1480, 1673, 1459, 1762, 1331],
  [458, 341, 1574, 1031, 1954, 617, 1285, 886, 317, 1867, 464, 1239, 1121, 1669, 1543, 1588,
    1329, 878, 153, 380, 508, 407, 1491, 529, 1630, 1635, 1234, 1864, 1983, 426, 583, 645],
  [1941, 1806, 393, 326, 3, 1166, 1279, 1057, 1759, 611, 1720, 1628, 170, 861, 1833, 399,
    714, 821, 86, 1231, 1990, 2042, 1691, 640, 1662, 698, 1260, 449, 1316, 416, 1146, 281],
  [353, 871, 1801, 97, 123, 1035, 612, 619, 1212, 853, 1464, 343, 1613, 1622, 1274, 1826,
    1300, 173, 1900, 1301, 1787, 1052, 337, 1295, 519, 1666, 1411, 1339, 1536, 1758, 697, 530],
  [657, 673, 44, 120, 760, 121, 513, 147, 1432, 1376, 1072, 1771, 777, 1702, 1176, 759,
    2018, 80, 357, 1744, 1050, 1889, 1623, 571, 151, 223, 418, 814, 1800, 1774, 563, 1314],
  [14, 322, 533, 801, 1694, 1499, 1914, 1665, 1402, 962, 847, 489, 639, 89, 641, 1992,
    197, 1714, 1310, 179, 192, 2039, 1196, 440, 683, 450, 69, 36, 665, 986, 1875, 1921],
  [1928, 1056, 1399, 1069, 1966, 942, 1553, 605, 397, 622, 1871, 2036, 1468, 894, 748, 1689,
    1644, 144, 1105, 978, 1112, 2019, 789, 210, 551, 236, 778, 635, 5, 968, 1365, 1527],
  [143, 2007, 1404, 376, 17, 1701, 1896, 250, 178, 1475, 1908, 128, 484, 1132, 149, 1642,
    88, 802, 1120, 806, 664, 1448, 1910, 837, 593, 1708, 1769, 808, 964, 277, 1747, 494],
  [867, 485, 260, 931, 1651, 1817, 1489, 1351, 636, 344, 1705, 1414, 758, 887, 1576, 1188,
    2027, 936, 1496, 1086, 1436, 898, 1851, 744, 1933, 812, 1118, 1266, 1926, 695, 1560, 1214],
  [447, 1998, 656, 1302, 1782, 432, 330, 2012, 23, 569, 654, 722, 232, 1497, 1220, 1261,
    1897, 1981, 1095, 1695, 919, 165, 1652, 2040, 1916, 1853, 1717, 1307, 685, 869, 1004, 1190],
  [1750, 1854, 1880, 610, 791, 1962, 628, 125, 934, 1354, 1210, 1812, 422, 1066, 1444, 264,
    623, 1393, 1739, 1122, 212, 45, 205, 244, 263, 945, 1284, 788, 332, 578, 258, 1725],
  [1703, 1572, 2000, 764, 338, 1600, 117, 1197, 185, 1810, 270, 716, 42, 1023, 140, 370,
    1559, 613, 1956, 368, 1715, 354, 352, 668, 1162, 429, 255, 169, 1337, 780, 1382, 1653],
  [1723, 621, 16, 2025, 1516, 1697, 412, 2046, 1103, 1355, 1979, 203, 1165, 1761, 1343, 1137,
    2005, 1421, 1149, 1189, 883, 2047, 552, 2006, 785, 730, 108, 480, 1256, 1336, 1891, 1338],
  [1529, 804, 1798, 1247, 348, 1745, 1028, 1248, 1062, 1340, 895, 1640, 1077, 660, 468, 1649,
    1939, 1271, 1503, 1615, 779, 983, 1230, 465, 1907, 145, 910, 1306, 1195, 1191, 1500, 675],
  [1010, 1700, 1840, 1901, 651, 180, 1136, 859, 1925, 1211, 614, 661, 439, 325, 1194, 607,
    1537, 1951, 1923, 335, 1638, 230, 385, 28, 1510, 1273, 1621, 608, 1488, 384, 1474, 1312],
  [548, 1018, 1582, 2020, 1326, 684, 1823, 546, 1884, 441, 1591, 1883, 1419, 300, 581, 409,
    1140, 1262, 312, 820, 946, 2001, 150, 62, 756, 479, 1915, 1281, 1709, 138, 994, 124],
  [832, 576, 1203, 113, 415, 1846, 1968, 1614, 1335, 733, 813, 81, 1107, 1288, 1912, 893,
    1633, 982, 1367, 798, 1692, 1327, 247, 1643, 1447, 523, 436, 360, 863, 540, 1138, 1919],
  [674, 304, 1785, 1481, 1687, 1270, 248, 599, 1015, 1637, 373, 960, 162, 844, 1964, 1442,
    2037, 1076, 311, 711, 1971, 383, 296, 1179, 1348, 27, 629, 1869, 1282, 888, 598, 775],
  [1441, 102, 1148, 1627, 1807, 1764, 1313, 43, 25, 782, 1125, 453, 588, 1873, 1502, 933,
    1805, 1479, 1634, 1595, 1363, 589, 1755, 836, 696, 1740, 637, 1999, 391, 1457, 99, 462],
  [486, 1991, 1936, 873, 991, 1141, 1297, 1811, 1834, 2035, 514, 1387, 1648, 66, 935, 6,
    567, 114, 166, 860, 560, 222, 1743, 303, 111, 323, 1558, 1781, 1287, 1541, 24, 339],
  [1920, 1938, 1667, 84, 718, 215, 363, 1275, 2004, 1160, 1147, 781, 1752, 456, 729, 787,
    473, 1278, 1984, 740, 1887, 737, 1357, 885, 417, 805, 1029, 632, 1997, 1589, 601, 1321],
  [1791, 93, 509, 653, 1803, 1097, 534, 1520, 566, 4, 64, 512, 817, 973, 995, 856,
    1837, 926, 1657, 1885, 586, 499, 1431, 1328, 810, 2008, 1860, 734, 76, 1106, 1927, 1722],
  [549, 700, 1732, 501, 229, 558, 1609, 1051, 1974, 603, 1544, 979, 34, 527, 1693, 1534,
    1216, 1408, 646, 1504, 1608, 1187, 565, 1934, 693, 880, 1440, 594, 425, 600, 1827, 1639],
  [1174, 1963, 1096, 160, 1616, 852, 972, 56, 706, 959, 148, 989, 1937, 1368, 502, 1485,
    1641, 857, 1443, 1347, 799, 1249, 1452, 689, 1922, 495, 2002, 1548, 1205, 1824, 1944, 537],
  [574, 131, 1362, 701, 414, 1022, 116, 295, 1819, 1085, 1844, 9, 211, 410, 1207, 1091,
    299, 1757, 948, 1809, 1707, 365, 85, 1135, 531, 2038, 648, 1130, 1754, 1293, 1850, 1746],
  [350, 1698, 2033, 1763, 892, 1252, 240, 1059, 443, 1127, 890, 132, 73, 52, 1011, 251,
    961, 367, 1258, 1829, 909, 1391, 809, 176, 1068, 497, 1379, 1779, 877, 763, 751, 1772],
  [172, 955, 1524, 1535, 239, 773, 361, 1067, 290, 1291, 694, 1935, 1946, 1569, 1227, 536,
    1409, 1318, 1042, 841, 455, 1929, 1460, 568, 78, 1311, 690, 292, 704, 1123, 1879, 921],
  [119, 437, 855, 688, 1267, 1959, 1320, 743, 1246, 1830, 1395, 493, 1530, 1108, 818, 953,
    1828, 956, 1890, 940, 1742, 927, 1674, 435, 776, 1603, 225, 214, 573, 95, 38, 1055],
  [532, 797, 122, 708, 1796, 106, 1647, 68, 1416, 1064, 1802, 1670, 1799, 142, 642, 2043,
    765, 1978, 139, 702, 1265, 235, 1075, 1592, 382, 727, 321, 1564, 1303, 746, 65, 1533],
  [134, 510, 71, 1450, 1173, 1777, 1843, 585, 1323, 1403, 1718, 1605, 1222, 1242, 1445, 1967,
    1134, 988, 1083, 1350, 1002, 932, 985, 1180, 667, 168, 75, 663, 739, 984, 491, 1225],
  [1913, 356, 288, 1254, 1980, 301, 107, 1426, 1813, 1243, 1678, 1159, 1469, 1778, 1539, 433,
    1994, 705, 550, 469, 195, 938, 555, 112, 1606, 1483, 1526, 876, 298, 1876, 1726, 691],
  [1151, 1088, 1235, 1229, 110, 389, 618, 1080, 2026, 1133, 1017, 1783, 1466, 340, 1213, 845,
    834, 1931, 1578, 500, 1557, 1423, 850, 923, 1389, 2011, 1251, 1814, 669, 1531, 1852, 26],
  [1493, 1435, 2015, 905, 865, 1660, 1250, 1865, 1427, 1636, 1943, 1430, 1547, 659, 561, 1945,
    1509, 1515, 1573, 252, 699, 394, 526, 1550, 625, 1517, 957, 1684, 1789, 1049, 858, 854],
  [774, 213, 682, 421, 707, 652, 1624, 1532, 1724, 1380, 1462, 539, 1294, 1454, 1632, 129,
    1942, 196, 1021, 1208, 1037, 1308, 271, 1476, 351, 1570, 1025, 1322, 838, 745, 609, 315],
  [1407, 505, 135, 528, 1552, 1325, 1236, 1373, 1027, 1036, 1263, 355, 1682, 273, 1918, 1513,
    638, 1199, 1257, 1218, 963, 204, 490, 1845, 1766, 1894, 604, 40, 452, 1924, 741, 1268],
  [1815, 1292, 11, 459, 377, 257, 1486, 259, 1733, 1429, 2041, 442, 901, 190, 1079, 1451,
    336, 1361, 217, 862, 282, 602, 1463, 1369, 283, 319, 1838, 1911, 556, 916, 606, 1892],
  [906, 1540, 793, 35, 1893, 1602, 1424, 819, 470, 1315, 1206, 1092, 517, 1038, 345, 1110,
    37, 1794, 951, 1342, 207, 868, 1041, 202, 1948, 755, 1418, 1356, 334, 1170, 1579, 115],
  [1898, 285, 1730, 1686, 1751, 0, 2021, 920, 342, 1611, 958, 944, 1507, 1706, 1000, 1172,
    1111, 1688, 1005, 161, 1182, 403, 1232, 266, 769, 1054, 990, 1400, 293, 1131, 471, 1498],
  [208, 949, 882, 209, 1053, 1713, 20, 154, 634, 1226, 349, 1482, 1836, 177, 1903, 1863,
    1117, 175, 900, 1749, 829, 1872, 1654, 922, 1334, 1177, 1090, 1683, 274, 310, 366, 827],
  [1792, 570, 1244, 1353, 181, 1650, 49, 1768, 1007, 1217, 1341, 419, 1115, 1699, 1858, 917,
    29, 650, 1982, 728, 272, 680, 1770, 1006, 280, 1178, 899, 358, 1508, 1501, 1906, 828],
  [562, 564, 404, 967, 980, 1947, 461, 302, 1375, 577, 398, 420, 60, 199, 1433, 1765,
    193, 381, 294, 521, 2003, 1675, 864, 1046, 925, 1157, 520, 253, 191, 98, 1551, 1625],
  [1169, 262, 1070, 1842, 331, 1861, 1518, 174, 1952, 547, 1233, 430, 929, 1098, 998, 1259,
    187, 815, 918, 1124, 1587, 392, 57, 1094, 504, 1296, 914, 666, 346, 1113, 1563, 803],
  [146, 1158, 390, 1084, 717, 1590, 1032, 1215, 1410, 265, 1969, 53, 1047, 444, 822, 1882,
    915, 1372, 1525, 870, 2014, 1821, 268, 726, 879, 1797, 1716, 1492, 993, 109, 19, 1741],
  [724, 575, 672, 457, 1728, 386, 974, 677, 492, 1060, 1795, 1511, 1150, 1786, 908, 1677,
    1583, 1566, 541, 904, 1664, 1646, 227, 1209, 2028, 952, 1437, 1001, 424, 104, 1030, 1184],
  [152, 220, 830, 372, 256, 795, 947, 1690, 557, 82, 545, 1346, 1305, 1358, 1114, 182,
    1645, 924, 1618, 796, 91, 790, 467, 1200, 231, 1155, 1392, 308, 472, 1003, 159, 1549],
  [183, 1734, 591, 1711, 761, 100, 362, 592, 1101, 897, 1126, 913, 835, 582, 1008, 679,
    987, 1238, 658, 719, 327, 1309, 1374, 1009, 287, 754, 1738, 1048, 92, 1736, 1116, 662],
  [826, 624, 633, 1835, 710, 912, 524, 1681, 1849, 843, 902, 77, 448, 130, 94, 1856,
    1808, 79, 872, 1458, 587, 101, 976, 496, 1175, 249, 1465, 1221, 1676, 305, 1129, 186],
  [278, 811, 313, 766, 1073, 712, 487, 378, 939, 1512, 286, 1324, 167, 1562, 1721, 1909,
    474, 1401, 1993, 136, 431, 1470, 1394, 1204, 32, 221, 194, 1571, 736, 1985, 1449, 1185],
  [1344, 2022, 1902, 1163, 2023, 141, 1183, 55, 889, 284, 511, 1490, 1298, 1370, 839, 747,
    1895, 831, 572, 823, 771, 279, 261, 1958, 597, 1317, 721, 1277, 314, 792, 992, 126],
  [735, 61, 297, 47, 1119, 941, 1192, 1505, 406, 1074, 1581, 48, 306, 1364, 400, 1825,
    1063, 375, 171, 1847, 1756, 1058, 1420, 1422, 786, 1, 254, 164, 723, 2, 615, 1413]]

theorem split32 (P : ℕ → Prop) (h : ∀ a, a < 64 → ∀ b, b < 32 → P (32 * a + b)) : ∀ i, i < 2048 → P i := by
  intro i hi
  have := h (i / 32) (by omega) (i % 32) (by omega)
  rwa [Nat.div_add_mod] at this

theorem perm_inv : ∀ i, i < 2048 → ((look permRows i).map fun j => decide (j < 2048) && decide (look invRows j = some i)) = some true :=
  split32 _ (by decide +kernel)

theorem inv_perm : ∀ i, i < 2048 → ((look invRows i).map fun j => decide (j < 2048) && decide (look permRows j = some i)) = some true :=
  split32 _ (by decide +kernel)

theorem order_rank : ∀ i, i < 2048 → ((look rankRows i).map fun j => decide (j < 2048) && decide (look orderRows j = some i)) = some true :=
  split32 _ (by decide +kernel)

theorem order_less : ∀ i, i < 2048 → (i + 1 < 2048 → ((look orderRows i).bind fun a => (look orderRows (i + 1)).bind fun b =>
    (look randRows a).bind fun x => (look randRows b).map fun y => decide (x < y)) = some true) :=
  split32 _ (by decide +kernel)

theorem rand_range : ∀ i, i < 2048 → ((look randRows i).map fun n => decide (0 < n) && decide (n < 10 ^ 14)) = some true :=
  split32 _ (by decide +kernel)

theorem map_true {α : Type} (o : Option α) (f : α → Bool) (h : o.map f = some true) : ∃ a, o = some a ∧ f a = true := by
  cases o with
  | none => simp at h
  | some a => exact ⟨a, rfl, by simpa using h⟩

theorem look_perm (i : ℕ) (hi : i < 2048) : ∃ j, look permRows i = some j ∧ j < 2048 ∧ look invRows j = some i := by
  obtain ⟨j, h1, h2⟩ := map_true _ _ (perm_inv i hi)
  simp only [Bool.and_eq_true, decide_eq_true_eq] at h2
  exact ⟨j, h1, h2.1, h2.2⟩

theorem perm_some (i : ℕ) (hi : i < 4096) : ∃ j, perm i = some j ∧ j < 2048 ∧ look invRows j = some (i % 2048) := by
  unfold perm
  rw [if_pos hi]
  exact look_perm (i % 2048) (by omega)

theorem perm_inj (i k : ℕ) (hi : i < 4096) (hk : k < 4096) : perm i = perm k ↔ i % 2048 = k % 2048 := by
  constructor
  · intro h
    obtain ⟨j, h1, _, h3⟩ := perm_some i hi
    obtain ⟨l, k1, _, k3⟩ := perm_some k hk
    rw [h1, k1, Option.some.injEq] at h
    rw [h, k3, Option.some.injEq] at h3
    exact h3.symm
  · intro h
    unfold perm
    rw [if_pos hi, if_pos hk, h]

/-- The number of a place in the order. -/
def at' (k : ℕ) : ℕ := ((look orderRows k).bind (look randRows)).getD 0

theorem at_less (i : ℕ) (hi : i + 1 < 2048) : at' i < at' (i + 1) := by
  have h := order_less i (by omega) hi
  unfold at'
  cases ha : look orderRows i with
  | none => rw [ha] at h; simp at h
  | some a =>
    cases hb : look orderRows (i + 1) with
    | none => rw [ha, hb] at h; simp at h
    | some b =>
      rw [ha, hb] at h
      simp only [Option.bind_some] at h ⊢
      cases hx : look randRows a with
      | none => rw [hx] at h; simp at h
      | some x =>
        cases hy : look randRows b with
        | none => rw [hx, hy] at h; simp at h
        | some y =>
          rw [hx, hy] at h
          simpa using h

theorem at_mono (i d : ℕ) (hi : i + d + 1 < 2048) : at' i < at' (i + d + 1) := by
  induction d with
  | zero => exact at_less i hi
  | succ d ih => exact lt_trans (ih (by omega)) (at_less (i + d + 1) (by omega))

theorem rand_inj (i k : ℕ) (hi : i < 2048) (hk : k < 2048) (h : look randRows i = look randRows k) : i = k := by
  obtain ⟨a, a1, a2⟩ := map_true _ _ (order_rank i hi)
  obtain ⟨b, b1, b2⟩ := map_true _ _ (order_rank k hk)
  simp only [Bool.and_eq_true, decide_eq_true_eq] at a2 b2
  have e : at' a = at' b := by unfold at'; rw [a2.2, b2.2]; simp only [Option.bind_some]; rw [h]
  have hab : a = b := by
    rcases Nat.lt_trichotomy a b with hl | hl | hl
    · have := at_mono a (b - a - 1) (by omega)
      rw [show a + (b - a - 1) + 1 = b by omega] at this
      omega
    · exact hl
    · have := at_mono b (a - b - 1) (by omega)
      rw [show b + (a - b - 1) + 1 = a by omega] at this
      omega
  have := a2.2
  rw [hab, b2.2, Option.some.injEq] at this
  exact this.symm

theorem random_some (i : ℕ) (hi : i < 2048) : ∃ r, random i = some r ∧ 0 < r ∧ r < 1 := by
  obtain ⟨n, h1, h2⟩ := map_true _ _ (rand_range i hi)
  simp only [Bool.and_eq_true, decide_eq_true_eq] at h2
  refine ⟨(n : ℚ) / 10 ^ 14, by unfold random; rw [h1]; rfl, ?_, ?_⟩
  · have : (0 : ℚ) < n := by exact_mod_cast h2.1
    positivity
  · rw [div_lt_one (by positivity)]
    exact_mod_cast h2.2

theorem random_inj (i k : ℕ) (hi : i < 2048) (hk : k < 2048) : random i = random k ↔ i = k := by
  constructor
  · intro h
    apply rand_inj i k hi hk
    obtain ⟨n, h1, _⟩ := map_true _ _ (rand_range i hi)
    obtain ⟨m, h2, _⟩ := map_true _ _ (rand_range k hk)
    unfold random at h
    rw [h1, h2] at h ⊢
    simp only [Option.map_some, Option.some.injEq] at h ⊢
    rw [div_left_inj' (by positivity)] at h
    exact_mod_cast h
  · rintro rfl; rfl

/-! ### Cells -/

theorem trunc_lower (x : ℚ) (h : 0 ≤ x ∨ x ≠ ⌊x⌋) : trunc (lower x) = ⌊x⌋ := by
  unfold trunc lower
  by_cases c : x < 0
  · rw [if_pos c, if_neg (by linarith)]
    rcases h with h | h
    · linarith
    · rw [Int.ceil_sub_one]
      have h1 : ⌈x⌉ ≤ ⌊x⌋ + 1 := Int.ceil_le_floor_add_one x
      have h2 : ⌊x⌋ < ⌈x⌉ := by
        rw [Int.lt_ceil]
        exact lt_of_le_of_ne (Int.floor_le x) (Ne.symm h)
      omega
  · rw [if_neg c, if_pos (by linarith)]

theorem and_mask (n : ℕ) : n &&& 0x7ff = n % 2048 := Nat.and_two_pow_sub_one_eq_mod n 11

theorem index_good (x : ℚ) (h : Good x) : permTableIndex (lower x) = some (⌊x⌋ % 2048).toNat := by
  unfold permTableIndex
  rw [trunc_lower x h.1, if_pos h.2, and_mask]
  congr 1
  omega

theorem walk_cons (x : ℚ) (xs : List ℚ) (i : ℕ) (h : Good x) : walk (x :: xs) i = (perm (i + (⌊x⌋ % 2048).toNat)).bind fun j => walk xs j := by
  have u : walk (x :: xs) i = (permTableIndex (lower x)).bind fun k => (perm (i + k)).bind fun j => walk xs j := rfl
  rw [u, index_good x h]
  rfl

theorem walk_some : ∀ (xs : List ℚ), (∀ x ∈ xs, Good x) → ∀ i, i < 2048 → ∃ j, walk xs i = some j ∧ j < 2048 := by
  intro xs
  induction xs with
  | nil => intro _ i hi; exact ⟨i, rfl, hi⟩
  | cons x xs ih =>
    intro h i hi
    rw [walk_cons x xs i (h x (by simp))]
    obtain ⟨j, h1, h2, _⟩ := perm_some (i + (⌊x⌋ % 2048).toNat) (by omega)
    rw [h1]
    exact ih (fun y hy => h y (by simp [hy])) j h2

theorem walk_inj : ∀ (xs : List ℚ), (∀ x ∈ xs, Good x) → ∀ i k, i < 2048 → k < 2048 → walk xs i = walk xs k → i = k := by
  intro xs
  induction xs with
  | nil => intro _ i k _ _ h; simpa [walk] using h
  | cons x xs ih =>
    intro h i k hi hk e
    rw [walk_cons x xs i (h x (by simp)), walk_cons x xs k (h x (by simp))] at e
    obtain ⟨j, h1, h2, _⟩ := perm_some (i + (⌊x⌋ % 2048).toNat) (by omega)
    obtain ⟨l, k1, k2, _⟩ := perm_some (k + (⌊x⌋ % 2048).toNat) (by omega)
    rw [h1, k1] at e
    have e2 := ih (fun y hy => h y (by simp [hy])) j l h2 k2 e
    have e3 := (perm_inj (i + (⌊x⌋ % 2048).toNat) (k + (⌊x⌋ % 2048).toNat) (by omega) (by omega)).mp (by rw [h1, k1, e2])
    omega

theorem walk_change (x y : ℚ) (xs : List ℚ) (hx : Good x) (hy : Good y) (h : ∀ z ∈ xs, Good z) (i : ℕ) (hi : i < 2048) :
    walk (x :: xs) i = walk (y :: xs) i ↔ Same x y := by
  rw [walk_cons x xs i hx, walk_cons y xs i hy]
  obtain ⟨j, h1, h2, _⟩ := perm_some (i + (⌊x⌋ % 2048).toNat) (by omega)
  obtain ⟨l, k1, k2, _⟩ := perm_some (i + (⌊y⌋ % 2048).toNat) (by omega)
  rw [h1, k1]
  have e := perm_inj (i + (⌊x⌋ % 2048).toNat) (i + (⌊y⌋ % 2048).toNat) (by omega) (by omega)
  rw [h1, k1, Option.some.injEq] at e
  have e2 : (walk xs j = walk xs l) ↔ j = l := ⟨walk_inj xs h j l h2 k2, fun c => by rw [c]⟩
  show (walk xs j = walk xs l) ↔ _
  rw [e2, e]
  unfold Same
  omega

theorem walk_same : ∀ (xs ys : List ℚ), (∀ x ∈ xs, Good x) → (∀ y ∈ ys, Good y) → List.Forall₂ Same xs ys → ∀ i, walk xs i = walk ys i := by
  intro xs ys hx hy h
  induction h with
  | nil => intro i; rfl
  | cons h _ ih =>
    intro i
    rw [walk_cons _ _ i (hx _ (by simp)), walk_cons _ _ i (hy _ (by simp))]
    unfold Same at h
    rw [h]
    congr 1
    funext j
    exact ih (fun x hm => hx x (by simp [hm])) (fun y hm => hy y (by simp [hm])) j

theorem bind_random (xs ys : List ℚ) (hx : ∀ x ∈ xs, Good x) (hy : ∀ y ∈ ys, Good y) :
    ((walk xs 0).bind random = (walk ys 0).bind random) ↔ walk xs 0 = walk ys 0 := by
  obtain ⟨j, h1, h2⟩ := walk_some xs hx 0 (by omega)
  obtain ⟨l, k1, k2⟩ := walk_some ys hy 0 (by omega)
  rw [h1, k1]
  simp only [Option.bind_some, Option.some.injEq]
  exact random_inj j l h2 k2

theorem three_some (i : ℕ) (hi : i < 2048) : ∃ a b c, three i = some (a, b, c) ∧ random i = some a ∧ 0 < a ∧ a < 1 ∧ 0 < b ∧ b < 1 ∧
    0 < c ∧ c < 1 := by
  obtain ⟨a, a1, a2⟩ := random_some i hi
  obtain ⟨j, j1, j2, _⟩ := perm_some i (by omega)
  obtain ⟨b, b1, b2⟩ := random_some j j2
  obtain ⟨k, k1, k2, _⟩ := perm_some j (by omega)
  obtain ⟨c, c1, c2⟩ := random_some k k2
  exact ⟨a, b, c, by unfold three; rw [a1]; simp [j1, b1, k1, c1], a1, a2.1, a2.2, b2.1, b2.2, c2.1, c2.2⟩

theorem bind_three (xs ys : List ℚ) (hx : ∀ x ∈ xs, Good x) (hy : ∀ y ∈ ys, Good y) :
    ((walk xs 0).bind three = (walk ys 0).bind three) ↔ walk xs 0 = walk ys 0 := by
  obtain ⟨j, h1, h2⟩ := walk_some xs hx 0 (by omega)
  obtain ⟨l, k1, k2⟩ := walk_some ys hy 0 (by omega)
  rw [h1, k1]
  simp only [Option.bind_some, Option.some.injEq]
  constructor
  · intro h
    obtain ⟨a, b, c, e, e1, _⟩ := three_some j h2
    obtain ⟨a', b', c', e', e1', _⟩ := three_some l k2
    rw [e, e', Option.some.injEq, Prod.mk.injEq] at h
    exact (random_inj j l h2 k2).mp (by rw [e1, e1', h.1])
  · rintro rfl; rfl

/-! ### The property -/

end Verif.Math.Cell
