import Verif.Instr.Model
/-! The operator tables of crates/wasmparser/src/binary_reader.rs, applied to the
`OperatorFactory` visitor (crates/wasmparser/src/readers/core/operators.rs lines 970-1002),
whose methods only build the `Operator`. The number after each row is its line. -/
namespace Verif.Instr
open Verif.Reader Verif.Types

/-- `visit_0xfb_operator` (lines 1134-1349) after its `read_var_u32`. -/
def visitFb (pos : Nat) (code : Nat) : R Operator :=
  match code with
  | 0x00 => .idx .structNew <$> readVarU32 -- 1144
  | 0x01 => .idx .structNewDefault <$> readVarU32 -- 1148
  | 0x02 => read2 (.idx2 .structGet) -- 1152
  | 0x03 => read2 (.idx2 .structGetS) -- 1157
  | 0x04 => read2 (.idx2 .structGetU) -- 1162
  | 0x05 => read2 (.idx2 .structSet) -- 1167
  | 0x06 => .idx .arrayNew <$> readVarU32 -- 1172
  | 0x07 => .idx .arrayNewDefault <$> readVarU32 -- 1176
  | 0x08 => read2 (.idx2 .arrayNewFixed) -- 1180
  | 0x09 => read2 (.idx2 .arrayNewData) -- 1185
  | 0x0a => read2 (.idx2 .arrayNewElem) -- 1190
  | 0x0b => .idx .arrayGet <$> readVarU32 -- 1195
  | 0x0c => .idx .arrayGetS <$> readVarU32 -- 1199
  | 0x0d => .idx .arrayGetU <$> readVarU32 -- 1203
  | 0x0e => .idx .arraySet <$> readVarU32 -- 1207
  | 0x0f => pure (.plain .arrayLen) -- 1211
  | 0x10 => .idx .arrayFill <$> readVarU32 -- 1212
  | 0x11 => read2 (.idx2 .arrayCopy) -- 1216
  | 0x12 => read2 (.idx2 .arrayInitData) -- 1221
  | 0x13 => read2 (.idx2 .arrayInitElem) -- 1226
  | 0x14 => .heap .refTestNonNull <$> readHeapType -- 1231
  | 0x15 => .heap .refTestNullable <$> readHeapType -- 1232
  | 0x16 => .heap .refCastNonNull <$> readHeapType -- 1233
  | 0x17 => .heap .refCastNullable <$> readHeapType -- 1234
  | 0x18 => readCast (.cast .brOnCast) -- 1235
  | 0x19 => readCast (.cast .brOnCastFail) -- 1258
  | 0x1a => pure (.plain .anyConvertExtern) -- 1282
  | 0x1b => pure (.plain .externConvertAny) -- 1283
  | 0x1c => pure (.plain .refI31) -- 1285
  | 0x1d => pure (.plain .i31GetS) -- 1286
  | 0x1e => pure (.plain .i31GetU) -- 1287
  | 0x20 => .idx .structNewDesc <$> readVarU32 -- 1289
  | 0x21 => .idx .structNewDefaultDesc <$> readVarU32 -- 1293
  | 0x22 => .idx .refGetDesc <$> readVarU32 -- 1297
  | 0x23 => .heap .refCastDescEqNonNull <$> readHeapType -- 1298
  | 0x24 => .heap .refCastDescEqNullable <$> readHeapType -- 1299
  | 0x25 => readCast (.cast .brOnCastDescEq) -- 1300
  | 0x26 => readCast (.cast .brOnCastDescEqFail) -- 1323
  | _ => R.fail "unknown 0xfb subopcode" pos

/-- `visit_0xfc_operator` (lines 1351-1429) after its `read_var_u32`. -/
def visitFc (pos : Nat) (code : Nat) : R Operator :=
  match code with
  | 0x00 => pure (.plain .i32TruncSatF32S) -- 1361
  | 0x01 => pure (.plain .i32TruncSatF32U) -- 1362
  | 0x02 => pure (.plain .i32TruncSatF64S) -- 1363
  | 0x03 => pure (.plain .i32TruncSatF64U) -- 1364
  | 0x04 => pure (.plain .i64TruncSatF32S) -- 1365
  | 0x05 => pure (.plain .i64TruncSatF32U) -- 1366
  | 0x06 => pure (.plain .i64TruncSatF64S) -- 1367
  | 0x07 => pure (.plain .i64TruncSatF64U) -- 1368
  | 0x08 => read2 .memoryInit -- 1370
  | 0x09 => .idx .dataDrop <$> readVarU32 -- 1375
  | 0x0a => read2 (.idx2 .memoryCopy) -- 1379
  | 0x0b => .idx .memoryFill <$> readVarU32 -- 1384
  | 0x0c => read2 .tableInit -- 1388
  | 0x0d => .idx .elemDrop <$> readVarU32 -- 1393
  | 0x0e => read2 (.idx2 .tableCopy) -- 1397
  | 0x0f => .idx .tableGrow <$> readVarU32 -- 1403
  | 0x10 => .idx .tableSize <$> readVarU32 -- 1407
  | 0x11 => .idx .tableFill <$> readVarU32 -- 1412
  | 0x12 => .idx .memoryDiscard <$> readVarU32 -- 1417
  | 0x13 => pure (.plain .i64Add128) -- 1422
  | 0x14 => pure (.plain .i64Sub128) -- 1423
  | 0x15 => pure (.plain .i64MulWideS) -- 1424
  | 0x16 => pure (.plain .i64MulWideU) -- 1425
  | _ => R.fail "unknown 0xfc subopcode" pos

/-- The rows of `visit_0xfd_operator` from line 1695 to line 1742. -/
def visitFd4 (f : Features) (pos : Nat) (code : Nat) : R Operator :=
  match code with
  | 0xe3 => pure (.plain .f32x4Sqrt) -- 1695
  | 0xe4 => pure (.plain .f32x4Add) -- 1696
  | 0xe5 => pure (.plain .f32x4Sub) -- 1697
  | 0xe6 => pure (.plain .f32x4Mul) -- 1698
  | 0xe7 => pure (.plain .f32x4Div) -- 1699
  | 0xe8 => pure (.plain .f32x4Min) -- 1700
  | 0xe9 => pure (.plain .f32x4Max) -- 1701
  | 0xea => pure (.plain .f32x4PMin) -- 1702
  | 0xeb => pure (.plain .f32x4PMax) -- 1703
  | 0xec => pure (.plain .f64x2Abs) -- 1704
  | 0xed => pure (.plain .f64x2Neg) -- 1705
  | 0xef => pure (.plain .f64x2Sqrt) -- 1706
  | 0xf0 => pure (.plain .f64x2Add) -- 1707
  | 0xf1 => pure (.plain .f64x2Sub) -- 1708
  | 0xf2 => pure (.plain .f64x2Mul) -- 1709
  | 0xf3 => pure (.plain .f64x2Div) -- 1710
  | 0xf4 => pure (.plain .f64x2Min) -- 1711
  | 0xf5 => pure (.plain .f64x2Max) -- 1712
  | 0xf6 => pure (.plain .f64x2PMin) -- 1713
  | 0xf7 => pure (.plain .f64x2PMax) -- 1714
  | 0xf8 => pure (.plain .i32x4TruncSatF32x4S) -- 1715
  | 0xf9 => pure (.plain .i32x4TruncSatF32x4U) -- 1716
  | 0xfa => pure (.plain .f32x4ConvertI32x4S) -- 1717
  | 0xfb => pure (.plain .f32x4ConvertI32x4U) -- 1718
  | 0xfc => pure (.plain .i32x4TruncSatF64x2SZero) -- 1719
  | 0xfd => pure (.plain .i32x4TruncSatF64x2UZero) -- 1720
  | 0xfe => pure (.plain .f64x2ConvertLowI32x4S) -- 1721
  | 0xff => pure (.plain .f64x2ConvertLowI32x4U) -- 1722
  | 0x100 => pure (.plain .i8x16RelaxedSwizzle) -- 1723
  | 0x101 => pure (.plain .i32x4RelaxedTruncF32x4S) -- 1724
  | 0x102 => pure (.plain .i32x4RelaxedTruncF32x4U) -- 1725
  | 0x103 => pure (.plain .i32x4RelaxedTruncF64x2SZero) -- 1726
  | 0x104 => pure (.plain .i32x4RelaxedTruncF64x2UZero) -- 1727
  | 0x105 => pure (.plain .f32x4RelaxedMadd) -- 1728
  | 0x106 => pure (.plain .f32x4RelaxedNmadd) -- 1729
  | 0x107 => pure (.plain .f64x2RelaxedMadd) -- 1730
  | 0x108 => pure (.plain .f64x2RelaxedNmadd) -- 1731
  | 0x109 => pure (.plain .i8x16RelaxedLaneselect) -- 1732
  | 0x10a => pure (.plain .i16x8RelaxedLaneselect) -- 1733
  | 0x10b => pure (.plain .i32x4RelaxedLaneselect) -- 1734
  | 0x10c => pure (.plain .i64x2RelaxedLaneselect) -- 1735
  | 0x10d => pure (.plain .f32x4RelaxedMin) -- 1736
  | 0x10e => pure (.plain .f32x4RelaxedMax) -- 1737
  | 0x10f => pure (.plain .f64x2RelaxedMin) -- 1738
  | 0x110 => pure (.plain .f64x2RelaxedMax) -- 1739
  | 0x111 => pure (.plain .i16x8RelaxedQ15mulrS) -- 1740
  | 0x112 => pure (.plain .i16x8RelaxedDotI8x16I7x16S) -- 1741
  | 0x113 => pure (.plain .i32x4RelaxedDotI8x16I7x16AddS) -- 1742
  | _ => R.fail "unknown 0xfd subopcode" pos

/-- The rows of `visit_0xfd_operator` from line 1643 to line 1694 and after. -/
def visitFd3 (f : Features) (pos : Nat) (code : Nat) : R Operator :=
  match code with
  | 0x9d => pure (.plain .i16x8ExtMulHighI8x16S) -- 1643
  | 0x9e => pure (.plain .i16x8ExtMulLowI8x16U) -- 1644
  | 0x9f => pure (.plain .i16x8ExtMulHighI8x16U) -- 1645
  | 0xa0 => pure (.plain .i32x4Abs) -- 1646
  | 0xa1 => pure (.plain .i32x4Neg) -- 1647
  | 0xa3 => pure (.plain .i32x4AllTrue) -- 1648
  | 0xa4 => pure (.plain .i32x4Bitmask) -- 1649
  | 0xa7 => pure (.plain .i32x4ExtendLowI16x8S) -- 1650
  | 0xa8 => pure (.plain .i32x4ExtendHighI16x8S) -- 1651
  | 0xa9 => pure (.plain .i32x4ExtendLowI16x8U) -- 1652
  | 0xaa => pure (.plain .i32x4ExtendHighI16x8U) -- 1653
  | 0xab => pure (.plain .i32x4Shl) -- 1654
  | 0xac => pure (.plain .i32x4ShrS) -- 1655
  | 0xad => pure (.plain .i32x4ShrU) -- 1656
  | 0xae => pure (.plain .i32x4Add) -- 1657
  | 0xb1 => pure (.plain .i32x4Sub) -- 1658
  | 0xb5 => pure (.plain .i32x4Mul) -- 1659
  | 0xb6 => pure (.plain .i32x4MinS) -- 1660
  | 0xb7 => pure (.plain .i32x4MinU) -- 1661
  | 0xb8 => pure (.plain .i32x4MaxS) -- 1662
  | 0xb9 => pure (.plain .i32x4MaxU) -- 1663
  | 0xba => pure (.plain .i32x4DotI16x8S) -- 1664
  | 0xbc => pure (.plain .i32x4ExtMulLowI16x8S) -- 1665
  | 0xbd => pure (.plain .i32x4ExtMulHighI16x8S) -- 1666
  | 0xbe => pure (.plain .i32x4ExtMulLowI16x8U) -- 1667
  | 0xbf => pure (.plain .i32x4ExtMulHighI16x8U) -- 1668
  | 0xc0 => pure (.plain .i64x2Abs) -- 1669
  | 0xc1 => pure (.plain .i64x2Neg) -- 1670
  | 0xc3 => pure (.plain .i64x2AllTrue) -- 1671
  | 0xc4 => pure (.plain .i64x2Bitmask) -- 1672
  | 0xc7 => pure (.plain .i64x2ExtendLowI32x4S) -- 1673
  | 0xc8 => pure (.plain .i64x2ExtendHighI32x4S) -- 1674
  | 0xc9 => pure (.plain .i64x2ExtendLowI32x4U) -- 1675
  | 0xca => pure (.plain .i64x2ExtendHighI32x4U) -- 1676
  | 0xcb => pure (.plain .i64x2Shl) -- 1677
  | 0xcc => pure (.plain .i64x2ShrS) -- 1678
  | 0xcd => pure (.plain .i64x2ShrU) -- 1679
  | 0xce => pure (.plain .i64x2Add) -- 1680
  | 0xd1 => pure (.plain .i64x2Sub) -- 1681
  | 0xd5 => pure (.plain .i64x2Mul) -- 1682
  | 0xd6 => pure (.plain .i64x2Eq) -- 1683
  | 0xd7 => pure (.plain .i64x2Ne) -- 1684
  | 0xd8 => pure (.plain .i64x2LtS) -- 1685
  | 0xd9 => pure (.plain .i64x2GtS) -- 1686
  | 0xda => pure (.plain .i64x2LeS) -- 1687
  | 0xdb => pure (.plain .i64x2GeS) -- 1688
  | 0xdc => pure (.plain .i64x2ExtMulLowI32x4S) -- 1689
  | 0xdd => pure (.plain .i64x2ExtMulHighI32x4S) -- 1690
  | 0xde => pure (.plain .i64x2ExtMulLowI32x4U) -- 1691
  | 0xdf => pure (.plain .i64x2ExtMulHighI32x4U) -- 1692
  | 0xe0 => pure (.plain .f32x4Abs) -- 1693
  | 0xe1 => pure (.plain .f32x4Neg) -- 1694
  | _ => visitFd4 f pos code

/-- The rows of `visit_0xfd_operator` from line 1591 to line 1642 and after. -/
def visitFd2 (f : Features) (pos : Nat) (code : Nat) : R Operator :=
  match code with
  | 0x68 => pure (.plain .f32x4Floor) -- 1591
  | 0x69 => pure (.plain .f32x4Trunc) -- 1592
  | 0x6a => pure (.plain .f32x4Nearest) -- 1593
  | 0x6b => pure (.plain .i8x16Shl) -- 1594
  | 0x6c => pure (.plain .i8x16ShrS) -- 1595
  | 0x6d => pure (.plain .i8x16ShrU) -- 1596
  | 0x6e => pure (.plain .i8x16Add) -- 1597
  | 0x6f => pure (.plain .i8x16AddSatS) -- 1598
  | 0x70 => pure (.plain .i8x16AddSatU) -- 1599
  | 0x71 => pure (.plain .i8x16Sub) -- 1600
  | 0x72 => pure (.plain .i8x16SubSatS) -- 1601
  | 0x73 => pure (.plain .i8x16SubSatU) -- 1602
  | 0x74 => pure (.plain .f64x2Ceil) -- 1603
  | 0x75 => pure (.plain .f64x2Floor) -- 1604
  | 0x76 => pure (.plain .i8x16MinS) -- 1605
  | 0x77 => pure (.plain .i8x16MinU) -- 1606
  | 0x78 => pure (.plain .i8x16MaxS) -- 1607
  | 0x79 => pure (.plain .i8x16MaxU) -- 1608
  | 0x7a => pure (.plain .f64x2Trunc) -- 1609
  | 0x7b => pure (.plain .i8x16AvgrU) -- 1610
  | 0x7c => pure (.plain .i16x8ExtAddPairwiseI8x16S) -- 1611
  | 0x7d => pure (.plain .i16x8ExtAddPairwiseI8x16U) -- 1612
  | 0x7e => pure (.plain .i32x4ExtAddPairwiseI16x8S) -- 1613
  | 0x7f => pure (.plain .i32x4ExtAddPairwiseI16x8U) -- 1614
  | 0x80 => pure (.plain .i16x8Abs) -- 1615
  | 0x81 => pure (.plain .i16x8Neg) -- 1616
  | 0x82 => pure (.plain .i16x8Q15MulrSatS) -- 1617
  | 0x83 => pure (.plain .i16x8AllTrue) -- 1618
  | 0x84 => pure (.plain .i16x8Bitmask) -- 1619
  | 0x85 => pure (.plain .i16x8NarrowI32x4S) -- 1620
  | 0x86 => pure (.plain .i16x8NarrowI32x4U) -- 1621
  | 0x87 => pure (.plain .i16x8ExtendLowI8x16S) -- 1622
  | 0x88 => pure (.plain .i16x8ExtendHighI8x16S) -- 1623
  | 0x89 => pure (.plain .i16x8ExtendLowI8x16U) -- 1624
  | 0x8a => pure (.plain .i16x8ExtendHighI8x16U) -- 1625
  | 0x8b => pure (.plain .i16x8Shl) -- 1626
  | 0x8c => pure (.plain .i16x8ShrS) -- 1627
  | 0x8d => pure (.plain .i16x8ShrU) -- 1628
  | 0x8e => pure (.plain .i16x8Add) -- 1629
  | 0x8f => pure (.plain .i16x8AddSatS) -- 1630
  | 0x90 => pure (.plain .i16x8AddSatU) -- 1631
  | 0x91 => pure (.plain .i16x8Sub) -- 1632
  | 0x92 => pure (.plain .i16x8SubSatS) -- 1633
  | 0x93 => pure (.plain .i16x8SubSatU) -- 1634
  | 0x94 => pure (.plain .f64x2Nearest) -- 1635
  | 0x95 => pure (.plain .i16x8Mul) -- 1636
  | 0x96 => pure (.plain .i16x8MinS) -- 1637
  | 0x97 => pure (.plain .i16x8MinU) -- 1638
  | 0x98 => pure (.plain .i16x8MaxS) -- 1639
  | 0x99 => pure (.plain .i16x8MaxU) -- 1640
  | 0x9b => pure (.plain .i16x8AvgrU) -- 1641
  | 0x9c => pure (.plain .i16x8ExtMulLowI8x16S) -- 1642
  | _ => visitFd3 f pos code

/-- The rows of `visit_0xfd_operator` from line 1505 to line 1590 and after. -/
def visitFd1 (f : Features) (pos : Nat) (code : Nat) : R Operator :=
  match code with
  | 0x34 => pure (.plain .i16x8LeU) -- 1505
  | 0x35 => pure (.plain .i16x8GeS) -- 1506
  | 0x36 => pure (.plain .i16x8GeU) -- 1507
  | 0x37 => pure (.plain .i32x4Eq) -- 1508
  | 0x38 => pure (.plain .i32x4Ne) -- 1509
  | 0x39 => pure (.plain .i32x4LtS) -- 1510
  | 0x3a => pure (.plain .i32x4LtU) -- 1511
  | 0x3b => pure (.plain .i32x4GtS) -- 1512
  | 0x3c => pure (.plain .i32x4GtU) -- 1513
  | 0x3d => pure (.plain .i32x4LeS) -- 1514
  | 0x3e => pure (.plain .i32x4LeU) -- 1515
  | 0x3f => pure (.plain .i32x4GeS) -- 1516
  | 0x40 => pure (.plain .i32x4GeU) -- 1517
  | 0x41 => pure (.plain .f32x4Eq) -- 1518
  | 0x42 => pure (.plain .f32x4Ne) -- 1519
  | 0x43 => pure (.plain .f32x4Lt) -- 1520
  | 0x44 => pure (.plain .f32x4Gt) -- 1521
  | 0x45 => pure (.plain .f32x4Le) -- 1522
  | 0x46 => pure (.plain .f32x4Ge) -- 1523
  | 0x47 => pure (.plain .f64x2Eq) -- 1524
  | 0x48 => pure (.plain .f64x2Ne) -- 1525
  | 0x49 => pure (.plain .f64x2Lt) -- 1526
  | 0x4a => pure (.plain .f64x2Gt) -- 1527
  | 0x4b => pure (.plain .f64x2Le) -- 1528
  | 0x4c => pure (.plain .f64x2Ge) -- 1529
  | 0x4d => pure (.plain .v128Not) -- 1530
  | 0x4e => pure (.plain .v128And) -- 1531
  | 0x4f => pure (.plain .v128AndNot) -- 1532
  | 0x50 => pure (.plain .v128Or) -- 1533
  | 0x51 => pure (.plain .v128Xor) -- 1534
  | 0x52 => pure (.plain .v128Bitselect) -- 1535
  | 0x53 => pure (.plain .v128AnyTrue) -- 1536
  | 0x54 => readMemLane f 0 (.memLane .v128Load8Lane) -- 1538
  | 0x55 => readMemLane f 1 (.memLane .v128Load16Lane) -- 1543
  | 0x56 => readMemLane f 2 (.memLane .v128Load32Lane) -- 1548
  | 0x57 => readMemLane f 3 (.memLane .v128Load64Lane) -- 1553
  | 0x58 => readMemLane f 0 (.memLane .v128Store8Lane) -- 1558
  | 0x59 => readMemLane f 1 (.memLane .v128Store16Lane) -- 1563
  | 0x5a => readMemLane f 2 (.memLane .v128Store32Lane) -- 1568
  | 0x5b => readMemLane f 3 (.memLane .v128Store64Lane) -- 1573
  | 0x5c => .mem .v128Load32Zero <$> readMemarg f 2 -- 1579
  | 0x5d => .mem .v128Load64Zero <$> readMemarg f 3 -- 1580
  | 0x5e => pure (.plain .f32x4DemoteF64x2Zero) -- 1581
  | 0x5f => pure (.plain .f64x2PromoteLowF32x4) -- 1582
  | 0x60 => pure (.plain .i8x16Abs) -- 1583
  | 0x61 => pure (.plain .i8x16Neg) -- 1584
  | 0x62 => pure (.plain .i8x16Popcnt) -- 1585
  | 0x63 => pure (.plain .i8x16AllTrue) -- 1586
  | 0x64 => pure (.plain .i8x16Bitmask) -- 1587
  | 0x65 => pure (.plain .i8x16NarrowI16x8S) -- 1588
  | 0x66 => pure (.plain .i8x16NarrowI16x8U) -- 1589
  | 0x67 => pure (.plain .f32x4Ceil) -- 1590
  | _ => visitFd2 f pos code

/-- `visit_0xfd_operator` (lines 1432-1746) after its `read_var_u32`. -/
def visitFd (f : Features) (pos : Nat) (code : Nat) : R Operator :=
  match code with
  | 0x00 => .mem .v128Load <$> readMemarg f 4 -- 1442
  | 0x01 => .mem .v128Load8x8S <$> readMemarg f 3 -- 1443
  | 0x02 => .mem .v128Load8x8U <$> readMemarg f 3 -- 1444
  | 0x03 => .mem .v128Load16x4S <$> readMemarg f 3 -- 1445
  | 0x04 => .mem .v128Load16x4U <$> readMemarg f 3 -- 1446
  | 0x05 => .mem .v128Load32x2S <$> readMemarg f 3 -- 1447
  | 0x06 => .mem .v128Load32x2U <$> readMemarg f 3 -- 1448
  | 0x07 => .mem .v128Load8Splat <$> readMemarg f 0 -- 1449
  | 0x08 => .mem .v128Load16Splat <$> readMemarg f 1 -- 1450
  | 0x09 => .mem .v128Load32Splat <$> readMemarg f 2 -- 1451
  | 0x0a => .mem .v128Load64Splat <$> readMemarg f 3 -- 1452
  | 0x0b => .mem .v128Store <$> readMemarg f 4 -- 1454
  | 0x0c => .v128Const <$> readBytes 16 -- 1455
  | 0x0d => .i8x16Shuffle <$> readMany readU8 16 -- 1456
  | 0x0e => pure (.plain .i8x16Swizzle) -- 1464
  | 0x0f => pure (.plain .i8x16Splat) -- 1465
  | 0x10 => pure (.plain .i16x8Splat) -- 1466
  | 0x11 => pure (.plain .i32x4Splat) -- 1467
  | 0x12 => pure (.plain .i64x2Splat) -- 1468
  | 0x13 => pure (.plain .f32x4Splat) -- 1469
  | 0x14 => pure (.plain .f64x2Splat) -- 1470
  | 0x15 => .lane .i8x16ExtractLaneS <$> readU8 -- 1472
  | 0x16 => .lane .i8x16ExtractLaneU <$> readU8 -- 1473
  | 0x17 => .lane .i8x16ReplaceLane <$> readU8 -- 1474
  | 0x18 => .lane .i16x8ExtractLaneS <$> readU8 -- 1475
  | 0x19 => .lane .i16x8ExtractLaneU <$> readU8 -- 1476
  | 0x1a => .lane .i16x8ReplaceLane <$> readU8 -- 1477
  | 0x1b => .lane .i32x4ExtractLane <$> readU8 -- 1478
  | 0x1c => .lane .i32x4ReplaceLane <$> readU8 -- 1480
  | 0x1d => .lane .i64x2ExtractLane <$> readU8 -- 1481
  | 0x1e => .lane .i64x2ReplaceLane <$> readU8 -- 1482
  | 0x1f => .lane .f32x4ExtractLane <$> readU8 -- 1483
  | 0x20 => .lane .f32x4ReplaceLane <$> readU8 -- 1484
  | 0x21 => .lane .f64x2ExtractLane <$> readU8 -- 1485
  | 0x22 => .lane .f64x2ReplaceLane <$> readU8 -- 1486
  | 0x23 => pure (.plain .i8x16Eq) -- 1488
  | 0x24 => pure (.plain .i8x16Ne) -- 1489
  | 0x25 => pure (.plain .i8x16LtS) -- 1490
  | 0x26 => pure (.plain .i8x16LtU) -- 1491
  | 0x27 => pure (.plain .i8x16GtS) -- 1492
  | 0x28 => pure (.plain .i8x16GtU) -- 1493
  | 0x29 => pure (.plain .i8x16LeS) -- 1494
  | 0x2a => pure (.plain .i8x16LeU) -- 1495
  | 0x2b => pure (.plain .i8x16GeS) -- 1496
  | 0x2c => pure (.plain .i8x16GeU) -- 1497
  | 0x2d => pure (.plain .i16x8Eq) -- 1498
  | 0x2e => pure (.plain .i16x8Ne) -- 1499
  | 0x2f => pure (.plain .i16x8LtS) -- 1500
  | 0x30 => pure (.plain .i16x8LtU) -- 1501
  | 0x31 => pure (.plain .i16x8GtS) -- 1502
  | 0x32 => pure (.plain .i16x8GtU) -- 1503
  | 0x33 => pure (.plain .i16x8LeS) -- 1504
  | _ => visitFd1 f pos code

/-- `visit_0xfe_operator` (lines 1748-1935) after its `read_var_u32`. -/
def visitFe (f : Features) (pos : Nat) (code : Nat) : R Operator :=
  match code with
  | 0x00 => .mem .memoryAtomicNotify <$> readMemarg f 2 -- 1758
  | 0x01 => .mem .memoryAtomicWait32 <$> readMemarg f 2 -- 1759
  | 0x02 => .mem .memoryAtomicWait64 <$> readMemarg f 3 -- 1760
  | 0x03 => (do
      if (← readU8) ≠ 0 then R.fail "nonzero byte after `atomic.fence`" pos
      else pure .atomicFence) -- 1761
  | 0x10 => .mem .i32AtomicLoad <$> readMemarg f 2 -- 1767
  | 0x11 => .mem .i64AtomicLoad <$> readMemarg f 3 -- 1768
  | 0x12 => .mem .i32AtomicLoad8U <$> readMemarg f 0 -- 1769
  | 0x13 => .mem .i32AtomicLoad16U <$> readMemarg f 1 -- 1770
  | 0x14 => .mem .i64AtomicLoad8U <$> readMemarg f 0 -- 1771
  | 0x15 => .mem .i64AtomicLoad16U <$> readMemarg f 1 -- 1772
  | 0x16 => .mem .i64AtomicLoad32U <$> readMemarg f 2 -- 1773
  | 0x17 => .mem .i32AtomicStore <$> readMemarg f 2 -- 1774
  | 0x18 => .mem .i64AtomicStore <$> readMemarg f 3 -- 1775
  | 0x19 => .mem .i32AtomicStore8 <$> readMemarg f 0 -- 1776
  | 0x1a => .mem .i32AtomicStore16 <$> readMemarg f 1 -- 1777
  | 0x1b => .mem .i64AtomicStore8 <$> readMemarg f 0 -- 1778
  | 0x1c => .mem .i64AtomicStore16 <$> readMemarg f 1 -- 1779
  | 0x1d => .mem .i64AtomicStore32 <$> readMemarg f 2 -- 1780
  | 0x1e => .mem .i32AtomicRmwAdd <$> readMemarg f 2 -- 1781
  | 0x1f => .mem .i64AtomicRmwAdd <$> readMemarg f 3 -- 1782
  | 0x20 => .mem .i32AtomicRmw8AddU <$> readMemarg f 0 -- 1783
  | 0x21 => .mem .i32AtomicRmw16AddU <$> readMemarg f 1 -- 1784
  | 0x22 => .mem .i64AtomicRmw8AddU <$> readMemarg f 0 -- 1785
  | 0x23 => .mem .i64AtomicRmw16AddU <$> readMemarg f 1 -- 1786
  | 0x24 => .mem .i64AtomicRmw32AddU <$> readMemarg f 2 -- 1787
  | 0x25 => .mem .i32AtomicRmwSub <$> readMemarg f 2 -- 1788
  | 0x26 => .mem .i64AtomicRmwSub <$> readMemarg f 3 -- 1789
  | 0x27 => .mem .i32AtomicRmw8SubU <$> readMemarg f 0 -- 1790
  | 0x28 => .mem .i32AtomicRmw16SubU <$> readMemarg f 1 -- 1791
  | 0x29 => .mem .i64AtomicRmw8SubU <$> readMemarg f 0 -- 1792
  | 0x2a => .mem .i64AtomicRmw16SubU <$> readMemarg f 1 -- 1793
  | 0x2b => .mem .i64AtomicRmw32SubU <$> readMemarg f 2 -- 1794
  | 0x2c => .mem .i32AtomicRmwAnd <$> readMemarg f 2 -- 1795
  | 0x2d => .mem .i64AtomicRmwAnd <$> readMemarg f 3 -- 1796
  | 0x2e => .mem .i32AtomicRmw8AndU <$> readMemarg f 0 -- 1797
  | 0x2f => .mem .i32AtomicRmw16AndU <$> readMemarg f 1 -- 1798
  | 0x30 => .mem .i64AtomicRmw8AndU <$> readMemarg f 0 -- 1799
  | 0x31 => .mem .i64AtomicRmw16AndU <$> readMemarg f 1 -- 1800
  | 0x32 => .mem .i64AtomicRmw32AndU <$> readMemarg f 2 -- 1801
  | 0x33 => .mem .i32AtomicRmwOr <$> readMemarg f 2 -- 1802
  | 0x34 => .mem .i64AtomicRmwOr <$> readMemarg f 3 -- 1803
  | 0x35 => .mem .i32AtomicRmw8OrU <$> readMemarg f 0 -- 1804
  | 0x36 => .mem .i32AtomicRmw16OrU <$> readMemarg f 1 -- 1805
  | 0x37 => .mem .i64AtomicRmw8OrU <$> readMemarg f 0 -- 1806
  | 0x38 => .mem .i64AtomicRmw16OrU <$> readMemarg f 1 -- 1807
  | 0x39 => .mem .i64AtomicRmw32OrU <$> readMemarg f 2 -- 1808
  | 0x3a => .mem .i32AtomicRmwXor <$> readMemarg f 2 -- 1809
  | 0x3b => .mem .i64AtomicRmwXor <$> readMemarg f 3 -- 1810
  | 0x3c => .mem .i32AtomicRmw8XorU <$> readMemarg f 0 -- 1811
  | 0x3d => .mem .i32AtomicRmw16XorU <$> readMemarg f 1 -- 1812
  | 0x3e => .mem .i64AtomicRmw8XorU <$> readMemarg f 0 -- 1813
  | 0x3f => .mem .i64AtomicRmw16XorU <$> readMemarg f 1 -- 1814
  | 0x40 => .mem .i64AtomicRmw32XorU <$> readMemarg f 2 -- 1815
  | 0x41 => .mem .i32AtomicRmwXchg <$> readMemarg f 2 -- 1816
  | 0x42 => .mem .i64AtomicRmwXchg <$> readMemarg f 3 -- 1817
  | 0x43 => .mem .i32AtomicRmw8XchgU <$> readMemarg f 0 -- 1818
  | 0x44 => .mem .i32AtomicRmw16XchgU <$> readMemarg f 1 -- 1819
  | 0x45 => .mem .i64AtomicRmw8XchgU <$> readMemarg f 0 -- 1820
  | 0x46 => .mem .i64AtomicRmw16XchgU <$> readMemarg f 1 -- 1821
  | 0x47 => .mem .i64AtomicRmw32XchgU <$> readMemarg f 2 -- 1822
  | 0x48 => .mem .i32AtomicRmwCmpxchg <$> readMemarg f 2 -- 1823
  | 0x49 => .mem .i64AtomicRmwCmpxchg <$> readMemarg f 3 -- 1824
  | 0x4a => .mem .i32AtomicRmw8CmpxchgU <$> readMemarg f 0 -- 1825
  | 0x4b => .mem .i32AtomicRmw16CmpxchgU <$> readMemarg f 1 -- 1826
  | 0x4c => .mem .i64AtomicRmw8CmpxchgU <$> readMemarg f 0 -- 1827
  | 0x4d => .mem .i64AtomicRmw16CmpxchgU <$> readMemarg f 1 -- 1828
  | 0x4e => .mem .i64AtomicRmw32CmpxchgU <$> readMemarg f 2 -- 1829
  | 0x4f => readAtomic (.atomic .globalAtomicGet) -- 1832
  | 0x50 => readAtomic (.atomic .globalAtomicSet) -- 1833
  | 0x51 => readAtomic (.atomic .globalAtomicRmwAdd) -- 1834
  | 0x52 => readAtomic (.atomic .globalAtomicRmwSub) -- 1837
  | 0x53 => readAtomic (.atomic .globalAtomicRmwAnd) -- 1840
  | 0x54 => readAtomic (.atomic .globalAtomicRmwOr) -- 1843
  | 0x55 => readAtomic (.atomic .globalAtomicRmwXor) -- 1844
  | 0x56 => readAtomic (.atomic .globalAtomicRmwXchg) -- 1847
  | 0x57 => readAtomic (.atomic .globalAtomicRmwCmpxchg) -- 1850
  | 0x58 => readAtomic (.atomic .tableAtomicGet) -- 1853
  | 0x59 => readAtomic (.atomic .tableAtomicSet) -- 1854
  | 0x5a => readAtomic (.atomic .tableAtomicRmwXchg) -- 1855
  | 0x5b => readAtomic (.atomic .tableAtomicRmwCmpxchg) -- 1858
  | 0x5c => readAtomic2 (.atomic2 .structAtomicGet) -- 1861
  | 0x5d => readAtomic2 (.atomic2 .structAtomicGetS) -- 1866
  | 0x5e => readAtomic2 (.atomic2 .structAtomicGetU) -- 1871
  | 0x5f => readAtomic2 (.atomic2 .structAtomicSet) -- 1876
  | 0x60 => readAtomic2 (.atomic2 .structAtomicRmwAdd) -- 1881
  | 0x61 => readAtomic2 (.atomic2 .structAtomicRmwSub) -- 1886
  | 0x62 => readAtomic2 (.atomic2 .structAtomicRmwAnd) -- 1891
  | 0x63 => readAtomic2 (.atomic2 .structAtomicRmwOr) -- 1896
  | 0x64 => readAtomic2 (.atomic2 .structAtomicRmwXor) -- 1901
  | 0x65 => readAtomic2 (.atomic2 .structAtomicRmwXchg) -- 1906
  | 0x66 => readAtomic2 (.atomic2 .structAtomicRmwCmpxchg) -- 1911
  | 0x67 => readAtomic (.atomic .arrayAtomicGet) -- 1916
  | 0x68 => readAtomic (.atomic .arrayAtomicGetS) -- 1917
  | 0x69 => readAtomic (.atomic .arrayAtomicGetU) -- 1918
  | 0x6a => readAtomic (.atomic .arrayAtomicSet) -- 1919
  | 0x6b => readAtomic (.atomic .arrayAtomicRmwAdd) -- 1920
  | 0x6c => readAtomic (.atomic .arrayAtomicRmwSub) -- 1921
  | 0x6d => readAtomic (.atomic .arrayAtomicRmwAnd) -- 1922
  | 0x6e => readAtomic (.atomic .arrayAtomicRmwOr) -- 1923
  | 0x6f => readAtomic (.atomic .arrayAtomicRmwXor) -- 1924
  | 0x70 => readAtomic (.atomic .arrayAtomicRmwXchg) -- 1925
  | 0x71 => readAtomic (.atomic .arrayAtomicRmwCmpxchg) -- 1928
  | 0x72 => pure (.plain .refI31Shared) -- 1931
  | _ => R.fail "unknown 0xfe subopcode" pos

/-- The rows of `match code` from line 1066 to line 1128. -/
def visitCode3 (f : Features) (k : FrameKind) (pos : Nat) (code : Nat) : R Operator :=
  match code with
  | 0xa4 => pure (.plain .f64Min) -- 1066
  | 0xa5 => pure (.plain .f64Max) -- 1067
  | 0xa6 => pure (.plain .f64Copysign) -- 1068
  | 0xa7 => pure (.plain .i32WrapI64) -- 1069
  | 0xa8 => pure (.plain .i32TruncF32S) -- 1070
  | 0xa9 => pure (.plain .i32TruncF32U) -- 1071
  | 0xaa => pure (.plain .i32TruncF64S) -- 1072
  | 0xab => pure (.plain .i32TruncF64U) -- 1073
  | 0xac => pure (.plain .i64ExtendI32S) -- 1074
  | 0xad => pure (.plain .i64ExtendI32U) -- 1075
  | 0xae => pure (.plain .i64TruncF32S) -- 1076
  | 0xaf => pure (.plain .i64TruncF32U) -- 1077
  | 0xb0 => pure (.plain .i64TruncF64S) -- 1078
  | 0xb1 => pure (.plain .i64TruncF64U) -- 1079
  | 0xb2 => pure (.plain .f32ConvertI32S) -- 1080
  | 0xb3 => pure (.plain .f32ConvertI32U) -- 1081
  | 0xb4 => pure (.plain .f32ConvertI64S) -- 1082
  | 0xb5 => pure (.plain .f32ConvertI64U) -- 1083
  | 0xb6 => pure (.plain .f32DemoteF64) -- 1084
  | 0xb7 => pure (.plain .f64ConvertI32S) -- 1085
  | 0xb8 => pure (.plain .f64ConvertI32U) -- 1086
  | 0xb9 => pure (.plain .f64ConvertI64S) -- 1087
  | 0xba => pure (.plain .f64ConvertI64U) -- 1088
  | 0xbb => pure (.plain .f64PromoteF32) -- 1089
  | 0xbc => pure (.plain .i32ReinterpretF32) -- 1090
  | 0xbd => pure (.plain .i64ReinterpretF64) -- 1091
  | 0xbe => pure (.plain .f32ReinterpretI32) -- 1092
  | 0xbf => pure (.plain .f64ReinterpretI64) -- 1093
  | 0xc0 => pure (.plain .i32Extend8S) -- 1095
  | 0xc1 => pure (.plain .i32Extend16S) -- 1096
  | 0xc2 => pure (.plain .i64Extend8S) -- 1097
  | 0xc3 => pure (.plain .i64Extend16S) -- 1098
  | 0xc4 => pure (.plain .i64Extend32S) -- 1099
  | 0xd0 => .heap .refNull <$> readHeapType -- 1101
  | 0xd1 => pure (.plain .refIsNull) -- 1102
  | 0xd2 => .idx .refFunc <$> readVarU32 -- 1103
  | 0xd3 => pure (.plain .refEq) -- 1104
  | 0xd4 => pure (.plain .refAsNonNull) -- 1105
  | 0xd5 => .idx .brOnNull <$> readVarU32 -- 1106
  | 0xd6 => .idx .brOnNonNull <$> readVarU32 -- 1107
  | 0xe0 => .idx .contNew <$> readVarU32 -- 1109
  | 0xe1 => read2 (.idx2 .contBind) -- 1110
  | 0xe2 => .idx .suspend <$> readVarU32 -- 1111
  | 0xe3 => (do
      let t ← readVarU32
      .resume t <$> readResumeTable) -- 1112
  | 0xe4 => (do
      let t ← readVarU32
      let e ← readVarU32
      .resumeThrow t e <$> readResumeTable) -- 1113
  | 0xe5 => (do
      let t ← readVarU32
      .resumeThrowRef t <$> readResumeTable) -- 1116
  | 0xe6 => read2 (.idx2 .switch) -- 1117
  | 0xfb => (do visitFb pos (← readVarU32).toNat) -- 1119
  | 0xfc => (do visitFc pos (← readVarU32).toNat) -- 1120
  | 0xfd => (do visitFd f pos (← readVarU32).toNat) -- 1121
  | 0xfe => (do visitFe f pos (← readVarU32).toNat) -- 1128
  | _ => R.fail "illegal opcode" pos

/-- The rows of `match code` from line 1013 to line 1065 and after. -/
def visitCode2 (f : Features) (k : FrameKind) (pos : Nat) (code : Nat) : R Operator :=
  match code with
  | 0x6f => pure (.plain .i32RemS) -- 1013
  | 0x70 => pure (.plain .i32RemU) -- 1014
  | 0x71 => pure (.plain .i32And) -- 1015
  | 0x72 => pure (.plain .i32Or) -- 1016
  | 0x73 => pure (.plain .i32Xor) -- 1017
  | 0x74 => pure (.plain .i32Shl) -- 1018
  | 0x75 => pure (.plain .i32ShrS) -- 1019
  | 0x76 => pure (.plain .i32ShrU) -- 1020
  | 0x77 => pure (.plain .i32Rotl) -- 1021
  | 0x78 => pure (.plain .i32Rotr) -- 1022
  | 0x79 => pure (.plain .i64Clz) -- 1023
  | 0x7a => pure (.plain .i64Ctz) -- 1024
  | 0x7b => pure (.plain .i64Popcnt) -- 1025
  | 0x7c => pure (.plain .i64Add) -- 1026
  | 0x7d => pure (.plain .i64Sub) -- 1027
  | 0x7e => pure (.plain .i64Mul) -- 1028
  | 0x7f => pure (.plain .i64DivS) -- 1029
  | 0x80 => pure (.plain .i64DivU) -- 1030
  | 0x81 => pure (.plain .i64RemS) -- 1031
  | 0x82 => pure (.plain .i64RemU) -- 1032
  | 0x83 => pure (.plain .i64And) -- 1033
  | 0x84 => pure (.plain .i64Or) -- 1034
  | 0x85 => pure (.plain .i64Xor) -- 1035
  | 0x86 => pure (.plain .i64Shl) -- 1036
  | 0x87 => pure (.plain .i64ShrS) -- 1037
  | 0x88 => pure (.plain .i64ShrU) -- 1038
  | 0x89 => pure (.plain .i64Rotl) -- 1039
  | 0x8a => pure (.plain .i64Rotr) -- 1040
  | 0x8b => pure (.plain .f32Abs) -- 1041
  | 0x8c => pure (.plain .f32Neg) -- 1042
  | 0x8d => pure (.plain .f32Ceil) -- 1043
  | 0x8e => pure (.plain .f32Floor) -- 1044
  | 0x8f => pure (.plain .f32Trunc) -- 1045
  | 0x90 => pure (.plain .f32Nearest) -- 1046
  | 0x91 => pure (.plain .f32Sqrt) -- 1047
  | 0x92 => pure (.plain .f32Add) -- 1048
  | 0x93 => pure (.plain .f32Sub) -- 1049
  | 0x94 => pure (.plain .f32Mul) -- 1050
  | 0x95 => pure (.plain .f32Div) -- 1051
  | 0x96 => pure (.plain .f32Min) -- 1052
  | 0x97 => pure (.plain .f32Max) -- 1053
  | 0x98 => pure (.plain .f32Copysign) -- 1054
  | 0x99 => pure (.plain .f64Abs) -- 1055
  | 0x9a => pure (.plain .f64Neg) -- 1056
  | 0x9b => pure (.plain .f64Ceil) -- 1057
  | 0x9c => pure (.plain .f64Floor) -- 1058
  | 0x9d => pure (.plain .f64Trunc) -- 1059
  | 0x9e => pure (.plain .f64Nearest) -- 1060
  | 0x9f => pure (.plain .f64Sqrt) -- 1061
  | 0xa0 => pure (.plain .f64Add) -- 1062
  | 0xa1 => pure (.plain .f64Sub) -- 1063
  | 0xa2 => pure (.plain .f64Mul) -- 1064
  | 0xa3 => pure (.plain .f64Div) -- 1065
  | _ => visitCode3 f k pos code

/-- The rows of `match code` from line 952 to line 1012 and after. -/
def visitCode1 (f : Features) (k : FrameKind) (pos : Nat) (code : Nat) : R Operator :=
  match code with
  | 0x3a => .mem .i32Store8 <$> readMemarg f 0 -- 952
  | 0x3b => .mem .i32Store16 <$> readMemarg f 1 -- 953
  | 0x3c => .mem .i64Store8 <$> readMemarg f 0 -- 954
  | 0x3d => .mem .i64Store16 <$> readMemarg f 1 -- 955
  | 0x3e => .mem .i64Store32 <$> readMemarg f 2 -- 956
  | 0x3f => .memorySize <$> readMemoryIndexOrZero f -- 957
  | 0x40 => .memoryGrow <$> readMemoryIndexOrZero f -- 961
  | 0x41 => .i32Const <$> readVarI32 -- 966
  | 0x42 => .i64Const <$> readVarI64 -- 967
  | 0x43 => .f32Const <$> readU32 -- 968
  | 0x44 => .f64Const <$> readU64 -- 969
  | 0x45 => pure (.plain .i32Eqz) -- 971
  | 0x46 => pure (.plain .i32Eq) -- 972
  | 0x47 => pure (.plain .i32Ne) -- 973
  | 0x48 => pure (.plain .i32LtS) -- 974
  | 0x49 => pure (.plain .i32LtU) -- 975
  | 0x4a => pure (.plain .i32GtS) -- 976
  | 0x4b => pure (.plain .i32GtU) -- 977
  | 0x4c => pure (.plain .i32LeS) -- 978
  | 0x4d => pure (.plain .i32LeU) -- 979
  | 0x4e => pure (.plain .i32GeS) -- 980
  | 0x4f => pure (.plain .i32GeU) -- 981
  | 0x50 => pure (.plain .i64Eqz) -- 982
  | 0x51 => pure (.plain .i64Eq) -- 983
  | 0x52 => pure (.plain .i64Ne) -- 984
  | 0x53 => pure (.plain .i64LtS) -- 985
  | 0x54 => pure (.plain .i64LtU) -- 986
  | 0x55 => pure (.plain .i64GtS) -- 987
  | 0x56 => pure (.plain .i64GtU) -- 988
  | 0x57 => pure (.plain .i64LeS) -- 989
  | 0x58 => pure (.plain .i64LeU) -- 990
  | 0x59 => pure (.plain .i64GeS) -- 991
  | 0x5a => pure (.plain .i64GeU) -- 992
  | 0x5b => pure (.plain .f32Eq) -- 993
  | 0x5c => pure (.plain .f32Ne) -- 994
  | 0x5d => pure (.plain .f32Lt) -- 995
  | 0x5e => pure (.plain .f32Gt) -- 996
  | 0x5f => pure (.plain .f32Le) -- 997
  | 0x60 => pure (.plain .f32Ge) -- 998
  | 0x61 => pure (.plain .f64Eq) -- 999
  | 0x62 => pure (.plain .f64Ne) -- 1000
  | 0x63 => pure (.plain .f64Lt) -- 1001
  | 0x64 => pure (.plain .f64Gt) -- 1002
  | 0x65 => pure (.plain .f64Le) -- 1003
  | 0x66 => pure (.plain .f64Ge) -- 1004
  | 0x67 => pure (.plain .i32Clz) -- 1005
  | 0x68 => pure (.plain .i32Ctz) -- 1006
  | 0x69 => pure (.plain .i32Popcnt) -- 1007
  | 0x6a => pure (.plain .i32Add) -- 1008
  | 0x6b => pure (.plain .i32Sub) -- 1009
  | 0x6c => pure (.plain .i32Mul) -- 1010
  | 0x6d => pure (.plain .i32DivS) -- 1011
  | 0x6e => pure (.plain .i32DivU) -- 1012
  | _ => visitCode2 f k pos code

/-- The rows of `match code` from line 924 to line 951 and after. -/
def visitCode0 (f : Features) (k : FrameKind) (pos : Nat) (code : Nat) : R Operator :=
  match code with
  | 0x1f => readTryTable -- 924
  | 0x20 => .idx .localGet <$> readVarU32 -- 926
  | 0x21 => .idx .localSet <$> readVarU32 -- 927
  | 0x22 => .idx .localTee <$> readVarU32 -- 928
  | 0x23 => .idx .globalGet <$> readVarU32 -- 929
  | 0x24 => .idx .globalSet <$> readVarU32 -- 930
  | 0x25 => .idx .tableGet <$> readVarU32 -- 931
  | 0x26 => .idx .tableSet <$> readVarU32 -- 932
  | 0x28 => .mem .i32Load <$> readMemarg f 2 -- 934
  | 0x29 => .mem .i64Load <$> readMemarg f 3 -- 935
  | 0x2a => .mem .f32Load <$> readMemarg f 2 -- 936
  | 0x2b => .mem .f64Load <$> readMemarg f 3 -- 937
  | 0x2c => .mem .i32Load8S <$> readMemarg f 0 -- 938
  | 0x2d => .mem .i32Load8U <$> readMemarg f 0 -- 939
  | 0x2e => .mem .i32Load16S <$> readMemarg f 1 -- 940
  | 0x2f => .mem .i32Load16U <$> readMemarg f 1 -- 941
  | 0x30 => .mem .i64Load8S <$> readMemarg f 0 -- 942
  | 0x31 => .mem .i64Load8U <$> readMemarg f 0 -- 943
  | 0x32 => .mem .i64Load16S <$> readMemarg f 1 -- 944
  | 0x33 => .mem .i64Load16U <$> readMemarg f 1 -- 945
  | 0x34 => .mem .i64Load32S <$> readMemarg f 2 -- 946
  | 0x35 => .mem .i64Load32U <$> readMemarg f 2 -- 947
  | 0x36 => .mem .i32Store <$> readMemarg f 2 -- 948
  | 0x37 => .mem .i64Store <$> readMemarg f 3 -- 949
  | 0x38 => .mem .f32Store <$> readMemarg f 2 -- 950
  | 0x39 => .mem .f64Store <$> readMemarg f 3 -- 951
  | _ => visitCode1 f k pos code

/-- The `match code` of `visit_operator` (lines 830-1132). -/
def visitCode (f : Features) (k : FrameKind) (pos : Nat) (code : Nat) : R Operator :=
  match code with
  | 0x00 => pure (.plain .unreachable) -- 843
  | 0x01 => pure (.plain .nop) -- 844
  | 0x02 => .block .block <$> readBlockType -- 845
  | 0x03 => .block .loop <$> readBlockType -- 846
  | 0x04 => .block .if_ <$> readBlockType -- 847
  | 0x05 => (do expectFrame k .if_ "else"; pure .else_) -- 848
  | 0x06 => (do requireLegacyExceptions f "try" pos; .block .try_ <$> readBlockType) -- 852
  | 0x07 => (do
      requireLegacyExceptions f "catch" pos
      expectCatchFrame k "catch"
      .catch_ <$> readVarU32) -- 861
  | 0x08 => .idx .throw <$> readVarU32 -- 874
  | 0x09 => .idx .rethrow <$> readVarU32 -- 875
  | 0x0a => pure (.plain .throwRef) -- 876
  | 0x0b => pure .end_ -- 877
  | 0x0c => .idx .br <$> readVarU32 -- 878
  | 0x0d => .idx .brIf <$> readVarU32 -- 879
  | 0x0e => .brTable <$> readBrTable -- 880
  | 0x0f => pure (.plain .return_) -- 881
  | 0x10 => .idx .call <$> readVarU32 -- 882
  | 0x11 => (do
      let index ← readVarU32
      let table ← readCallIndirectTable f
      pure (.callIndirect index table)) -- 883
  | 0x12 => .idx .returnCall <$> readVarU32 -- 888
  | 0x13 => read2 .returnCallIndirect -- 889
  | 0x14 => .idx .callRef <$> readVarU32 -- 890
  | 0x15 => .idx .returnCallRef <$> readVarU32 -- 891
  | 0x18 => (do expectFrame k .legacyTry "delegate"; .delegate <$> readVarU32) -- 892
  | 0x19 => (do
      requireLegacyExceptions f "catch_all" pos
      expectCatchFrame k "catch_all"
      pure .catchAll) -- 896
  | 0x1a => pure (.plain .drop) -- 909
  | 0x1b => pure (.plain .select) -- 910
  | 0x1c => readTypedSelect -- 911
  | _ => visitCode0 f k pos code

/-- `BinaryReader::visit_operator` (lines 830-1132) with the visitor's current frame. -/
def visitOperator (f : Features) (frame : Option FrameKind) : R Operator := do
  match frame with
  | none => R.fail "operators remaining after end of function body or expression" (← readPos)
  | some k =>
    let pos ← readPos
    let code ← readU8
    visitCode f k pos code.toNat

end Verif.Instr
