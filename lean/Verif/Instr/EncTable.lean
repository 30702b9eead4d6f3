import Verif.Instr.Names
import Verif.Leb.Model
/-! The bytes that each method of `InstructionSink`
(crates/wasm-encoder/src/core/instructions.rs) emits before the immediates. The number after
each row is the line of the method. -/
namespace Verif.Instr.Enc
open Verif.Leb

/-- How a method writes its opcode: `push(b)`, `push(p); push(b)` or
`push(p); c.encode(sink)` with a `u32`. -/
inductive Opcode where
  | one (b : UInt8)
  | raw (p b : UInt8)
  | leb (p : UInt8) (c : BitVec 32)
  deriving DecidableEq, Repr

/-- The bytes written (instructions.rs, first statements of each method). -/
def Opcode.bytes : Opcode → List UInt8
  | .one b => [b]
  | .raw p b => [p, b]
  | .leb p c => p :: encodeU32 c

/-- Opcodes of the `Plain` methods (instructions.rs lines 24-4638). -/
def opcodePlain : Plain → Opcode
  | .unreachable => .one 0x00 -- 24
  | .nop => .one 0x01 -- 30
  | .return_ => .one 0x0F -- 108
  | .throwRef => .one 0x0A -- 180
  | .drop => .one 0x1A -- 224
  | .select => .one 0x1B -- 230
  | .i32Eqz => .one 0x45 -- 524
  | .i32Eq => .one 0x46 -- 530
  | .i32Ne => .one 0x47 -- 536
  | .i32LtS => .one 0x48 -- 542
  | .i32LtU => .one 0x49 -- 548
  | .i32GtS => .one 0x4A -- 554
  | .i32GtU => .one 0x4B -- 560
  | .i32LeS => .one 0x4C -- 566
  | .i32LeU => .one 0x4D -- 572
  | .i32GeS => .one 0x4E -- 578
  | .i32GeU => .one 0x4F -- 584
  | .i64Eqz => .one 0x50 -- 590
  | .i64Eq => .one 0x51 -- 596
  | .i64Ne => .one 0x52 -- 602
  | .i64LtS => .one 0x53 -- 608
  | .i64LtU => .one 0x54 -- 614
  | .i64GtS => .one 0x55 -- 620
  | .i64GtU => .one 0x56 -- 626
  | .i64LeS => .one 0x57 -- 632
  | .i64LeU => .one 0x58 -- 638
  | .i64GeS => .one 0x59 -- 644
  | .i64GeU => .one 0x5A -- 650
  | .f32Eq => .one 0x5B -- 656
  | .f32Ne => .one 0x5C -- 662
  | .f32Lt => .one 0x5D -- 668
  | .f32Gt => .one 0x5E -- 674
  | .f32Le => .one 0x5F -- 680
  | .f32Ge => .one 0x60 -- 686
  | .f64Eq => .one 0x61 -- 692
  | .f64Ne => .one 0x62 -- 698
  | .f64Lt => .one 0x63 -- 704
  | .f64Gt => .one 0x64 -- 710
  | .f64Le => .one 0x65 -- 716
  | .f64Ge => .one 0x66 -- 722
  | .i32Clz => .one 0x67 -- 728
  | .i32Ctz => .one 0x68 -- 734
  | .i32Popcnt => .one 0x69 -- 740
  | .i32Add => .one 0x6A -- 746
  | .i32Sub => .one 0x6B -- 752
  | .i32Mul => .one 0x6C -- 758
  | .i32DivS => .one 0x6D -- 764
  | .i32DivU => .one 0x6E -- 770
  | .i32RemS => .one 0x6F -- 776
  | .i32RemU => .one 0x70 -- 782
  | .i32And => .one 0x71 -- 788
  | .i32Or => .one 0x72 -- 794
  | .i32Xor => .one 0x73 -- 800
  | .i32Shl => .one 0x74 -- 806
  | .i32ShrS => .one 0x75 -- 812
  | .i32ShrU => .one 0x76 -- 818
  | .i32Rotl => .one 0x77 -- 824
  | .i32Rotr => .one 0x78 -- 830
  | .i64Clz => .one 0x79 -- 836
  | .i64Ctz => .one 0x7A -- 842
  | .i64Popcnt => .one 0x7B -- 848
  | .i64Add => .one 0x7C -- 854
  | .i64Sub => .one 0x7D -- 860
  | .i64Mul => .one 0x7E -- 866
  | .i64DivS => .one 0x7F -- 872
  | .i64DivU => .one 0x80 -- 878
  | .i64RemS => .one 0x81 -- 884
  | .i64RemU => .one 0x82 -- 890
  | .i64And => .one 0x83 -- 896
  | .i64Or => .one 0x84 -- 902
  | .i64Xor => .one 0x85 -- 908
  | .i64Shl => .one 0x86 -- 914
  | .i64ShrS => .one 0x87 -- 920
  | .i64ShrU => .one 0x88 -- 926
  | .i64Rotl => .one 0x89 -- 932
  | .i64Rotr => .one 0x8A -- 938
  | .f32Abs => .one 0x8B -- 944
  | .f32Neg => .one 0x8C -- 950
  | .f32Ceil => .one 0x8D -- 956
  | .f32Floor => .one 0x8E -- 962
  | .f32Trunc => .one 0x8F -- 968
  | .f32Nearest => .one 0x90 -- 974
  | .f32Sqrt => .one 0x91 -- 980
  | .f32Add => .one 0x92 -- 986
  | .f32Sub => .one 0x93 -- 992
  | .f32Mul => .one 0x94 -- 998
  | .f32Div => .one 0x95 -- 1004
  | .f32Min => .one 0x96 -- 1010
  | .f32Max => .one 0x97 -- 1016
  | .f32Copysign => .one 0x98 -- 1022
  | .f64Abs => .one 0x99 -- 1028
  | .f64Neg => .one 0x9A -- 1034
  | .f64Ceil => .one 0x9B -- 1040
  | .f64Floor => .one 0x9C -- 1046
  | .f64Trunc => .one 0x9D -- 1052
  | .f64Nearest => .one 0x9E -- 1058
  | .f64Sqrt => .one 0x9F -- 1064
  | .f64Add => .one 0xA0 -- 1070
  | .f64Sub => .one 0xA1 -- 1076
  | .f64Mul => .one 0xA2 -- 1082
  | .f64Div => .one 0xA3 -- 1088
  | .f64Min => .one 0xA4 -- 1094
  | .f64Max => .one 0xA5 -- 1100
  | .f64Copysign => .one 0xA6 -- 1106
  | .i32WrapI64 => .one 0xA7 -- 1112
  | .i32TruncF32S => .one 0xA8 -- 1118
  | .i32TruncF32U => .one 0xA9 -- 1124
  | .i32TruncF64S => .one 0xAA -- 1130
  | .i32TruncF64U => .one 0xAB -- 1136
  | .i64ExtendI32S => .one 0xAC -- 1142
  | .i64ExtendI32U => .one 0xAD -- 1148
  | .i64TruncF32S => .one 0xAE -- 1154
  | .i64TruncF32U => .one 0xAF -- 1160
  | .i64TruncF64S => .one 0xB0 -- 1166
  | .i64TruncF64U => .one 0xB1 -- 1172
  | .f32ConvertI32S => .one 0xB2 -- 1178
  | .f32ConvertI32U => .one 0xB3 -- 1184
  | .f32ConvertI64S => .one 0xB4 -- 1190
  | .f32ConvertI64U => .one 0xB5 -- 1196
  | .f32DemoteF64 => .one 0xB6 -- 1202
  | .f64ConvertI32S => .one 0xB7 -- 1208
  | .f64ConvertI32U => .one 0xB8 -- 1214
  | .f64ConvertI64S => .one 0xB9 -- 1220
  | .f64ConvertI64U => .one 0xBA -- 1226
  | .f64PromoteF32 => .one 0xBB -- 1232
  | .i32ReinterpretF32 => .one 0xBC -- 1238
  | .i64ReinterpretF64 => .one 0xBD -- 1244
  | .f32ReinterpretI32 => .one 0xBE -- 1250
  | .f64ReinterpretI64 => .one 0xBF -- 1256
  | .i32Extend8S => .one 0xC0 -- 1262
  | .i32Extend16S => .one 0xC1 -- 1268
  | .i64Extend8S => .one 0xC2 -- 1274
  | .i64Extend16S => .one 0xC3 -- 1280
  | .i64Extend32S => .one 0xC4 -- 1286
  | .i32TruncSatF32S => .raw 0xFC 0x00 -- 1292
  | .i32TruncSatF32U => .raw 0xFC 0x01 -- 1299
  | .i32TruncSatF64S => .raw 0xFC 0x02 -- 1306
  | .i32TruncSatF64U => .raw 0xFC 0x03 -- 1313
  | .i64TruncSatF32S => .raw 0xFC 0x04 -- 1320
  | .i64TruncSatF32U => .raw 0xFC 0x05 -- 1327
  | .i64TruncSatF64S => .raw 0xFC 0x06 -- 1334
  | .i64TruncSatF64U => .raw 0xFC 0x07 -- 1341
  | .refIsNull => .one 0xD1 -- 1371
  | .refEq => .one 0xD3 -- 1384
  | .refAsNonNull => .one 0xD4 -- 1390
  | .arrayLen => .raw 0xFB 0x0F -- 1541
  | .anyConvertExtern => .raw 0xFB 0x1A -- 1653
  | .externConvertAny => .raw 0xFB 0x1B -- 1660
  | .refI31 => .raw 0xFB 0x1C -- 1667
  | .i31GetS => .raw 0xFB 0x1D -- 1674
  | .i31GetU => .raw 0xFB 0x1E -- 1681
  | .i8x16Swizzle => .leb 0xFD 0x0E#32 -- 2068
  | .i8x16Splat => .leb 0xFD 0x0F#32 -- 2075
  | .i16x8Splat => .leb 0xFD 0x10#32 -- 2082
  | .i32x4Splat => .leb 0xFD 0x11#32 -- 2089
  | .i64x2Splat => .leb 0xFD 0x12#32 -- 2096
  | .f32x4Splat => .leb 0xFD 0x13#32 -- 2103
  | .f64x2Splat => .leb 0xFD 0x14#32 -- 2110
  | .i8x16Eq => .leb 0xFD 0x23#32 -- 2117
  | .i8x16Ne => .leb 0xFD 0x24#32 -- 2124
  | .i8x16LtS => .leb 0xFD 0x25#32 -- 2131
  | .i8x16LtU => .leb 0xFD 0x26#32 -- 2138
  | .i8x16GtS => .leb 0xFD 0x27#32 -- 2145
  | .i8x16GtU => .leb 0xFD 0x28#32 -- 2152
  | .i8x16LeS => .leb 0xFD 0x29#32 -- 2159
  | .i8x16LeU => .leb 0xFD 0x2A#32 -- 2166
  | .i8x16GeS => .leb 0xFD 0x2B#32 -- 2173
  | .i8x16GeU => .leb 0xFD 0x2C#32 -- 2180
  | .i16x8Eq => .leb 0xFD 0x2D#32 -- 2187
  | .i16x8Ne => .leb 0xFD 0x2E#32 -- 2194
  | .i16x8LtS => .leb 0xFD 0x2F#32 -- 2201
  | .i16x8LtU => .leb 0xFD 0x30#32 -- 2208
  | .i16x8GtS => .leb 0xFD 0x31#32 -- 2215
  | .i16x8GtU => .leb 0xFD 0x32#32 -- 2222
  | .i16x8LeS => .leb 0xFD 0x33#32 -- 2229
  | .i16x8LeU => .leb 0xFD 0x34#32 -- 2236
  | .i16x8GeS => .leb 0xFD 0x35#32 -- 2243
  | .i16x8GeU => .leb 0xFD 0x36#32 -- 2250
  | .i32x4Eq => .leb 0xFD 0x37#32 -- 2257
  | .i32x4Ne => .leb 0xFD 0x38#32 -- 2264
  | .i32x4LtS => .leb 0xFD 0x39#32 -- 2271
  | .i32x4LtU => .leb 0xFD 0x3A#32 -- 2278
  | .i32x4GtS => .leb 0xFD 0x3B#32 -- 2285
  | .i32x4GtU => .leb 0xFD 0x3C#32 -- 2292
  | .i32x4LeS => .leb 0xFD 0x3D#32 -- 2299
  | .i32x4LeU => .leb 0xFD 0x3E#32 -- 2306
  | .i32x4GeS => .leb 0xFD 0x3F#32 -- 2313
  | .i32x4GeU => .leb 0xFD 0x40#32 -- 2320
  | .i64x2Eq => .leb 0xFD 0xD6#32 -- 2327
  | .i64x2Ne => .leb 0xFD 0xD7#32 -- 2334
  | .i64x2LtS => .leb 0xFD 0xD8#32 -- 2341
  | .i64x2GtS => .leb 0xFD 0xD9#32 -- 2348
  | .i64x2LeS => .leb 0xFD 0xDA#32 -- 2355
  | .i64x2GeS => .leb 0xFD 0xDB#32 -- 2362
  | .f32x4Eq => .leb 0xFD 0x41#32 -- 2369
  | .f32x4Ne => .leb 0xFD 0x42#32 -- 2376
  | .f32x4Lt => .leb 0xFD 0x43#32 -- 2383
  | .f32x4Gt => .leb 0xFD 0x44#32 -- 2390
  | .f32x4Le => .leb 0xFD 0x45#32 -- 2397
  | .f32x4Ge => .leb 0xFD 0x46#32 -- 2404
  | .f64x2Eq => .leb 0xFD 0x47#32 -- 2411
  | .f64x2Ne => .leb 0xFD 0x48#32 -- 2418
  | .f64x2Lt => .leb 0xFD 0x49#32 -- 2425
  | .f64x2Gt => .leb 0xFD 0x4A#32 -- 2432
  | .f64x2Le => .leb 0xFD 0x4B#32 -- 2439
  | .f64x2Ge => .leb 0xFD 0x4C#32 -- 2446
  | .v128Not => .leb 0xFD 0x4D#32 -- 2453
  | .v128And => .leb 0xFD 0x4E#32 -- 2460
  | .v128AndNot => .leb 0xFD 0x4F#32 -- 2467
  | .v128Or => .leb 0xFD 0x50#32 -- 2474
  | .v128Xor => .leb 0xFD 0x51#32 -- 2481
  | .v128Bitselect => .leb 0xFD 0x52#32 -- 2488
  | .v128AnyTrue => .leb 0xFD 0x53#32 -- 2495
  | .i8x16Abs => .leb 0xFD 0x60#32 -- 2502
  | .i8x16Neg => .leb 0xFD 0x61#32 -- 2509
  | .i8x16Popcnt => .leb 0xFD 0x62#32 -- 2516
  | .i8x16AllTrue => .leb 0xFD 0x63#32 -- 2523
  | .i8x16Bitmask => .leb 0xFD 0x64#32 -- 2530
  | .i8x16NarrowI16x8S => .leb 0xFD 0x65#32 -- 2537
  | .i8x16NarrowI16x8U => .leb 0xFD 0x66#32 -- 2544
  | .i8x16Shl => .leb 0xFD 0x6B#32 -- 2551
  | .i8x16ShrS => .leb 0xFD 0x6C#32 -- 2558
  | .i8x16ShrU => .leb 0xFD 0x6D#32 -- 2565
  | .i8x16Add => .leb 0xFD 0x6E#32 -- 2572
  | .i8x16AddSatS => .leb 0xFD 0x6F#32 -- 2579
  | .i8x16AddSatU => .leb 0xFD 0x70#32 -- 2586
  | .i8x16Sub => .leb 0xFD 0x71#32 -- 2593
  | .i8x16SubSatS => .leb 0xFD 0x72#32 -- 2600
  | .i8x16SubSatU => .leb 0xFD 0x73#32 -- 2607
  | .i8x16MinS => .leb 0xFD 0x76#32 -- 2614
  | .i8x16MinU => .leb 0xFD 0x77#32 -- 2621
  | .i8x16MaxS => .leb 0xFD 0x78#32 -- 2628
  | .i8x16MaxU => .leb 0xFD 0x79#32 -- 2635
  | .i8x16AvgrU => .leb 0xFD 0x7B#32 -- 2642
  | .i16x8ExtAddPairwiseI8x16S => .leb 0xFD 0x7C#32 -- 2649
  | .i16x8ExtAddPairwiseI8x16U => .leb 0xFD 0x7D#32 -- 2656
  | .i16x8Abs => .leb 0xFD 0x80#32 -- 2663
  | .i16x8Neg => .leb 0xFD 0x81#32 -- 2670
  | .i16x8Q15MulrSatS => .leb 0xFD 0x82#32 -- 2677
  | .i16x8AllTrue => .leb 0xFD 0x83#32 -- 2684
  | .i16x8Bitmask => .leb 0xFD 0x84#32 -- 2691
  | .i16x8NarrowI32x4S => .leb 0xFD 0x85#32 -- 2698
  | .i16x8NarrowI32x4U => .leb 0xFD 0x86#32 -- 2705
  | .i16x8ExtendLowI8x16S => .leb 0xFD 0x87#32 -- 2712
  | .i16x8ExtendHighI8x16S => .leb 0xFD 0x88#32 -- 2719
  | .i16x8ExtendLowI8x16U => .leb 0xFD 0x89#32 -- 2726
  | .i16x8ExtendHighI8x16U => .leb 0xFD 0x8A#32 -- 2733
  | .i16x8Shl => .leb 0xFD 0x8B#32 -- 2740
  | .i16x8ShrS => .leb 0xFD 0x8C#32 -- 2747
  | .i16x8ShrU => .leb 0xFD 0x8D#32 -- 2754
  | .i16x8Add => .leb 0xFD 0x8E#32 -- 2761
  | .i16x8AddSatS => .leb 0xFD 0x8F#32 -- 2768
  | .i16x8AddSatU => .leb 0xFD 0x90#32 -- 2775
  | .i16x8Sub => .leb 0xFD 0x91#32 -- 2782
  | .i16x8SubSatS => .leb 0xFD 0x92#32 -- 2789
  | .i16x8SubSatU => .leb 0xFD 0x93#32 -- 2796
  | .i16x8Mul => .leb 0xFD 0x95#32 -- 2803
  | .i16x8MinS => .leb 0xFD 0x96#32 -- 2810
  | .i16x8MinU => .leb 0xFD 0x97#32 -- 2817
  | .i16x8MaxS => .leb 0xFD 0x98#32 -- 2824
  | .i16x8MaxU => .leb 0xFD 0x99#32 -- 2831
  | .i16x8AvgrU => .leb 0xFD 0x9B#32 -- 2838
  | .i16x8ExtMulLowI8x16S => .leb 0xFD 0x9C#32 -- 2845
  | .i16x8ExtMulHighI8x16S => .leb 0xFD 0x9D#32 -- 2852
  | .i16x8ExtMulLowI8x16U => .leb 0xFD 0x9E#32 -- 2859
  | .i16x8ExtMulHighI8x16U => .leb 0xFD 0x9F#32 -- 2866
  | .i32x4ExtAddPairwiseI16x8S => .leb 0xFD 0x7E#32 -- 2873
  | .i32x4ExtAddPairwiseI16x8U => .leb 0xFD 0x7F#32 -- 2880
  | .i32x4Abs => .leb 0xFD 0xA0#32 -- 2887
  | .i32x4Neg => .leb 0xFD 0xA1#32 -- 2894
  | .i32x4AllTrue => .leb 0xFD 0xA3#32 -- 2901
  | .i32x4Bitmask => .leb 0xFD 0xA4#32 -- 2908
  | .i32x4ExtendLowI16x8S => .leb 0xFD 0xA7#32 -- 2915
  | .i32x4ExtendHighI16x8S => .leb 0xFD 0xA8#32 -- 2922
  | .i32x4ExtendLowI16x8U => .leb 0xFD 0xA9#32 -- 2929
  | .i32x4ExtendHighI16x8U => .leb 0xFD 0xAA#32 -- 2936
  | .i32x4Shl => .leb 0xFD 0xAB#32 -- 2943
  | .i32x4ShrS => .leb 0xFD 0xAC#32 -- 2950
  | .i32x4ShrU => .leb 0xFD 0xAD#32 -- 2957
  | .i32x4Add => .leb 0xFD 0xAE#32 -- 2964
  | .i32x4Sub => .leb 0xFD 0xB1#32 -- 2971
  | .i32x4Mul => .leb 0xFD 0xB5#32 -- 2978
  | .i32x4MinS => .leb 0xFD 0xB6#32 -- 2985
  | .i32x4MinU => .leb 0xFD 0xB7#32 -- 2992
  | .i32x4MaxS => .leb 0xFD 0xB8#32 -- 2999
  | .i32x4MaxU => .leb 0xFD 0xB9#32 -- 3006
  | .i32x4DotI16x8S => .leb 0xFD 0xBA#32 -- 3013
  | .i32x4ExtMulLowI16x8S => .leb 0xFD 0xBC#32 -- 3020
  | .i32x4ExtMulHighI16x8S => .leb 0xFD 0xBD#32 -- 3027
  | .i32x4ExtMulLowI16x8U => .leb 0xFD 0xBE#32 -- 3034
  | .i32x4ExtMulHighI16x8U => .leb 0xFD 0xBF#32 -- 3041
  | .i64x2Abs => .leb 0xFD 0xC0#32 -- 3048
  | .i64x2Neg => .leb 0xFD 0xC1#32 -- 3055
  | .i64x2AllTrue => .leb 0xFD 0xC3#32 -- 3062
  | .i64x2Bitmask => .leb 0xFD 0xC4#32 -- 3069
  | .i64x2ExtendLowI32x4S => .leb 0xFD 0xC7#32 -- 3076
  | .i64x2ExtendHighI32x4S => .leb 0xFD 0xC8#32 -- 3083
  | .i64x2ExtendLowI32x4U => .leb 0xFD 0xC9#32 -- 3090
  | .i64x2ExtendHighI32x4U => .leb 0xFD 0xCA#32 -- 3097
  | .i64x2Shl => .leb 0xFD 0xCB#32 -- 3104
  | .i64x2ShrS => .leb 0xFD 0xCC#32 -- 3111
  | .i64x2ShrU => .leb 0xFD 0xCD#32 -- 3118
  | .i64x2Add => .leb 0xFD 0xCE#32 -- 3125
  | .i64x2Sub => .leb 0xFD 0xD1#32 -- 3132
  | .i64x2Mul => .leb 0xFD 0xD5#32 -- 3139
  | .i64x2ExtMulLowI32x4S => .leb 0xFD 0xDC#32 -- 3146
  | .i64x2ExtMulHighI32x4S => .leb 0xFD 0xDD#32 -- 3153
  | .i64x2ExtMulLowI32x4U => .leb 0xFD 0xDE#32 -- 3160
  | .i64x2ExtMulHighI32x4U => .leb 0xFD 0xDF#32 -- 3167
  | .f32x4Ceil => .leb 0xFD 0x67#32 -- 3174
  | .f32x4Floor => .leb 0xFD 0x68#32 -- 3181
  | .f32x4Trunc => .leb 0xFD 0x69#32 -- 3188
  | .f32x4Nearest => .leb 0xFD 0x6A#32 -- 3195
  | .f32x4Abs => .leb 0xFD 0xE0#32 -- 3202
  | .f32x4Neg => .leb 0xFD 0xE1#32 -- 3209
  | .f32x4Sqrt => .leb 0xFD 0xE3#32 -- 3216
  | .f32x4Add => .leb 0xFD 0xE4#32 -- 3223
  | .f32x4Sub => .leb 0xFD 0xE5#32 -- 3230
  | .f32x4Mul => .leb 0xFD 0xE6#32 -- 3237
  | .f32x4Div => .leb 0xFD 0xE7#32 -- 3244
  | .f32x4Min => .leb 0xFD 0xE8#32 -- 3251
  | .f32x4Max => .leb 0xFD 0xE9#32 -- 3258
  | .f32x4PMin => .leb 0xFD 0xEA#32 -- 3265
  | .f32x4PMax => .leb 0xFD 0xEB#32 -- 3272
  | .f64x2Ceil => .leb 0xFD 0x74#32 -- 3279
  | .f64x2Floor => .leb 0xFD 0x75#32 -- 3286
  | .f64x2Trunc => .leb 0xFD 0x7A#32 -- 3293
  | .f64x2Nearest => .leb 0xFD 0x94#32 -- 3300
  | .f64x2Abs => .leb 0xFD 0xEC#32 -- 3307
  | .f64x2Neg => .leb 0xFD 0xED#32 -- 3314
  | .f64x2Sqrt => .leb 0xFD 0xEF#32 -- 3321
  | .f64x2Add => .leb 0xFD 0xF0#32 -- 3328
  | .f64x2Sub => .leb 0xFD 0xF1#32 -- 3335
  | .f64x2Mul => .leb 0xFD 0xF2#32 -- 3342
  | .f64x2Div => .leb 0xFD 0xF3#32 -- 3349
  | .f64x2Min => .leb 0xFD 0xF4#32 -- 3356
  | .f64x2Max => .leb 0xFD 0xF5#32 -- 3363
  | .f64x2PMin => .leb 0xFD 0xF6#32 -- 3370
  | .f64x2PMax => .leb 0xFD 0xF7#32 -- 3377
  | .i32x4TruncSatF32x4S => .leb 0xFD 0xF8#32 -- 3384
  | .i32x4TruncSatF32x4U => .leb 0xFD 0xF9#32 -- 3391
  | .f32x4ConvertI32x4S => .leb 0xFD 0xFA#32 -- 3398
  | .f32x4ConvertI32x4U => .leb 0xFD 0xFB#32 -- 3405
  | .i32x4TruncSatF64x2SZero => .leb 0xFD 0xFC#32 -- 3412
  | .i32x4TruncSatF64x2UZero => .leb 0xFD 0xFD#32 -- 3419
  | .f64x2ConvertLowI32x4S => .leb 0xFD 0xFE#32 -- 3426
  | .f64x2ConvertLowI32x4U => .leb 0xFD 0xFF#32 -- 3433
  | .f32x4DemoteF64x2Zero => .leb 0xFD 0x5E#32 -- 3440
  | .f64x2PromoteLowF32x4 => .leb 0xFD 0x5F#32 -- 3447
  | .i8x16RelaxedSwizzle => .leb 0xFD 0x100#32 -- 3456
  | .i32x4RelaxedTruncF32x4S => .leb 0xFD 0x101#32 -- 3463
  | .i32x4RelaxedTruncF32x4U => .leb 0xFD 0x102#32 -- 3470
  | .i32x4RelaxedTruncF64x2SZero => .leb 0xFD 0x103#32 -- 3477
  | .i32x4RelaxedTruncF64x2UZero => .leb 0xFD 0x104#32 -- 3484
  | .f32x4RelaxedMadd => .leb 0xFD 0x105#32 -- 3491
  | .f32x4RelaxedNmadd => .leb 0xFD 0x106#32 -- 3498
  | .f64x2RelaxedMadd => .leb 0xFD 0x107#32 -- 3505
  | .f64x2RelaxedNmadd => .leb 0xFD 0x108#32 -- 3512
  | .i8x16RelaxedLaneselect => .leb 0xFD 0x109#32 -- 3519
  | .i16x8RelaxedLaneselect => .leb 0xFD 0x10A#32 -- 3526
  | .i32x4RelaxedLaneselect => .leb 0xFD 0x10B#32 -- 3533
  | .i64x2RelaxedLaneselect => .leb 0xFD 0x10C#32 -- 3540
  | .f32x4RelaxedMin => .leb 0xFD 0x10D#32 -- 3547
  | .f32x4RelaxedMax => .leb 0xFD 0x10E#32 -- 3554
  | .f64x2RelaxedMin => .leb 0xFD 0x10F#32 -- 3561
  | .f64x2RelaxedMax => .leb 0xFD 0x110#32 -- 3568
  | .i16x8RelaxedQ15mulrS => .leb 0xFD 0x111#32 -- 3575
  | .i16x8RelaxedDotI8x16I7x16S => .leb 0xFD 0x112#32 -- 3582
  | .i32x4RelaxedDotI8x16I7x16AddS => .leb 0xFD 0x113#32 -- 3589
  | .refI31Shared => .raw 0xFE 0x72 -- 4529
  | .i64Add128 => .leb 0xFC 0x13#32 -- 4617
  | .i64Sub128 => .leb 0xFC 0x14#32 -- 4624
  | .i64MulWideS => .leb 0xFC 0x15#32 -- 4631
  | .i64MulWideU => .leb 0xFC 0x16#32 -- 4638

/-- Opcodes of the `Blk` methods (instructions.rs lines 36-188). -/
def opcodeBlk : Blk → Opcode
  | .block => .one 0x02 -- 36
  | .loop => .one 0x03 -- 43
  | .if_ => .one 0x04 -- 50
  | .try_ => .one 0x06 -- 188

/-- Opcodes of the `Idx` methods (instructions.rs lines 69-4645). -/
def opcodeIdx : Idx → Opcode
  | .br => .one 0x0C -- 69
  | .brIf => .one 0x0D -- 76
  | .brOnNull => .one 0xD5 -- 94
  | .brOnNonNull => .one 0xD6 -- 101
  | .call => .one 0x10 -- 114
  | .callRef => .one 0x14 -- 121
  | .returnCallRef => .one 0x15 -- 136
  | .returnCall => .one 0x12 -- 143
  | .throw => .one 0x08 -- 173
  | .rethrow => .one 0x09 -- 215
  | .localGet => .one 0x20 -- 238
  | .localSet => .one 0x21 -- 245
  | .localTee => .one 0x22 -- 252
  | .globalGet => .one 0x23 -- 259
  | .globalSet => .one 0x24 -- 266
  | .dataDrop => .raw 0xFC 0x09 -- 459
  | .memoryFill => .raw 0xFC 0x0B -- 476
  | .memoryDiscard => .raw 0xFC 0x12 -- 484
  | .refFunc => .one 0xD2 -- 1377
  | .structNew => .raw 0xFB 0x00 -- 1398
  | .structNewDefault => .raw 0xFB 0x01 -- 1406
  | .structNewDesc => .raw 0xFB 0x20 -- 1450
  | .structNewDefaultDesc => .raw 0xFB 0x21 -- 1458
  | .arrayNew => .raw 0xFB 0x06 -- 1466
  | .arrayNewDefault => .raw 0xFB 0x07 -- 1474
  | .arrayGet => .raw 0xFB 0x0B -- 1509
  | .arrayGetS => .raw 0xFB 0x0C -- 1517
  | .arrayGetU => .raw 0xFB 0x0D -- 1525
  | .arraySet => .raw 0xFB 0x0E -- 1533
  | .arrayFill => .raw 0xFB 0x10 -- 1548
  | .elemDrop => .raw 0xFC 0x0D -- 1699
  | .tableFill => .raw 0xFC 0x11 -- 1707
  | .tableSet => .one 0x26 -- 1715
  | .tableGet => .one 0x25 -- 1722
  | .tableGrow => .raw 0xFC 0x0F -- 1729
  | .tableSize => .raw 0xFC 0x10 -- 1737
  | .contNew => .one 0xE0 -- 4538
  | .suspend => .one 0xE2 -- 4553
  | .refGetDesc => .leb 0xFB 0x22#32 -- 4645

/-- Opcodes of the `Idx2` methods (instructions.rs lines 467-4607). -/
def opcodeIdx2 : Idx2 → Opcode
  | .memoryCopy => .raw 0xFC 0x0A -- 467
  | .structGet => .raw 0xFB 0x02 -- 1414
  | .structGetS => .raw 0xFB 0x03 -- 1423
  | .structGetU => .raw 0xFB 0x04 -- 1432
  | .structSet => .raw 0xFB 0x05 -- 1441
  | .arrayNewFixed => .raw 0xFB 0x08 -- 1482
  | .arrayNewData => .raw 0xFB 0x09 -- 1491
  | .arrayNewElem => .raw 0xFB 0x0A -- 1500
  | .arrayCopy => .raw 0xFB 0x11 -- 1556
  | .arrayInitData => .raw 0xFB 0x12 -- 1569
  | .arrayInitElem => .raw 0xFB 0x13 -- 1578
  | .tableCopy => .raw 0xFC 0x0E -- 1745
  | .contBind => .one 0xE1 -- 4545
  | .switch => .one 0xE6 -- 4607

/-- Opcodes of the `Mem` methods (instructions.rs lines 275-4126). -/
def opcodeMem : Mem → Opcode
  | .i32Load => .one 0x28 -- 275
  | .i64Load => .one 0x29 -- 282
  | .f32Load => .one 0x2A -- 289
  | .f64Load => .one 0x2B -- 296
  | .i32Load8S => .one 0x2C -- 303
  | .i32Load8U => .one 0x2D -- 310
  | .i32Load16S => .one 0x2E -- 317
  | .i32Load16U => .one 0x2F -- 324
  | .i64Load8S => .one 0x30 -- 331
  | .i64Load8U => .one 0x31 -- 338
  | .i64Load16S => .one 0x32 -- 345
  | .i64Load16U => .one 0x33 -- 352
  | .i64Load32S => .one 0x34 -- 359
  | .i64Load32U => .one 0x35 -- 366
  | .i32Store => .one 0x36 -- 373
  | .i64Store => .one 0x37 -- 380
  | .f32Store => .one 0x38 -- 387
  | .f64Store => .one 0x39 -- 394
  | .i32Store8 => .one 0x3A -- 401
  | .i32Store16 => .one 0x3B -- 408
  | .i64Store8 => .one 0x3C -- 415
  | .i64Store16 => .one 0x3D -- 422
  | .i64Store32 => .one 0x3E -- 429
  | .v128Load => .leb 0xFD 0x00#32 -- 1756
  | .v128Load8x8S => .leb 0xFD 0x01#32 -- 1764
  | .v128Load8x8U => .leb 0xFD 0x02#32 -- 1772
  | .v128Load16x4S => .leb 0xFD 0x03#32 -- 1780
  | .v128Load16x4U => .leb 0xFD 0x04#32 -- 1788
  | .v128Load32x2S => .leb 0xFD 0x05#32 -- 1796
  | .v128Load32x2U => .leb 0xFD 0x06#32 -- 1804
  | .v128Load8Splat => .leb 0xFD 0x07#32 -- 1812
  | .v128Load16Splat => .leb 0xFD 0x08#32 -- 1820
  | .v128Load32Splat => .leb 0xFD 0x09#32 -- 1828
  | .v128Load64Splat => .leb 0xFD 0x0A#32 -- 1836
  | .v128Load32Zero => .leb 0xFD 0x5C#32 -- 1844
  | .v128Load64Zero => .leb 0xFD 0x5D#32 -- 1852
  | .v128Store => .leb 0xFD 0x0B#32 -- 1860
  | .memoryAtomicNotify => .raw 0xFE 0x00 -- 3598
  | .memoryAtomicWait32 => .raw 0xFE 0x01 -- 3606
  | .memoryAtomicWait64 => .raw 0xFE 0x02 -- 3614
  | .i32AtomicLoad => .raw 0xFE 0x10 -- 3630
  | .i64AtomicLoad => .raw 0xFE 0x11 -- 3638
  | .i32AtomicLoad8U => .raw 0xFE 0x12 -- 3646
  | .i32AtomicLoad16U => .raw 0xFE 0x13 -- 3654
  | .i64AtomicLoad8U => .raw 0xFE 0x14 -- 3662
  | .i64AtomicLoad16U => .raw 0xFE 0x15 -- 3670
  | .i64AtomicLoad32U => .raw 0xFE 0x16 -- 3678
  | .i32AtomicStore => .raw 0xFE 0x17 -- 3686
  | .i64AtomicStore => .raw 0xFE 0x18 -- 3694
  | .i32AtomicStore8 => .raw 0xFE 0x19 -- 3702
  | .i32AtomicStore16 => .raw 0xFE 0x1A -- 3710
  | .i64AtomicStore8 => .raw 0xFE 0x1B -- 3718
  | .i64AtomicStore16 => .raw 0xFE 0x1C -- 3726
  | .i64AtomicStore32 => .raw 0xFE 0x1D -- 3734
  | .i32AtomicRmwAdd => .raw 0xFE 0x1E -- 3742
  | .i64AtomicRmwAdd => .raw 0xFE 0x1F -- 3750
  | .i32AtomicRmw8AddU => .raw 0xFE 0x20 -- 3758
  | .i32AtomicRmw16AddU => .raw 0xFE 0x21 -- 3766
  | .i64AtomicRmw8AddU => .raw 0xFE 0x22 -- 3774
  | .i64AtomicRmw16AddU => .raw 0xFE 0x23 -- 3782
  | .i64AtomicRmw32AddU => .raw 0xFE 0x24 -- 3790
  | .i32AtomicRmwSub => .raw 0xFE 0x25 -- 3798
  | .i64AtomicRmwSub => .raw 0xFE 0x26 -- 3806
  | .i32AtomicRmw8SubU => .raw 0xFE 0x27 -- 3814
  | .i32AtomicRmw16SubU => .raw 0xFE 0x28 -- 3822
  | .i64AtomicRmw8SubU => .raw 0xFE 0x29 -- 3830
  | .i64AtomicRmw16SubU => .raw 0xFE 0x2A -- 3838
  | .i64AtomicRmw32SubU => .raw 0xFE 0x2B -- 3846
  | .i32AtomicRmwAnd => .raw 0xFE 0x2C -- 3854
  | .i64AtomicRmwAnd => .raw 0xFE 0x2D -- 3862
  | .i32AtomicRmw8AndU => .raw 0xFE 0x2E -- 3870
  | .i32AtomicRmw16AndU => .raw 0xFE 0x2F -- 3878
  | .i64AtomicRmw8AndU => .raw 0xFE 0x30 -- 3886
  | .i64AtomicRmw16AndU => .raw 0xFE 0x31 -- 3894
  | .i64AtomicRmw32AndU => .raw 0xFE 0x32 -- 3902
  | .i32AtomicRmwOr => .raw 0xFE 0x33 -- 3910
  | .i64AtomicRmwOr => .raw 0xFE 0x34 -- 3918
  | .i32AtomicRmw8OrU => .raw 0xFE 0x35 -- 3926
  | .i32AtomicRmw16OrU => .raw 0xFE 0x36 -- 3934
  | .i64AtomicRmw8OrU => .raw 0xFE 0x37 -- 3942
  | .i64AtomicRmw16OrU => .raw 0xFE 0x38 -- 3950
  | .i64AtomicRmw32OrU => .raw 0xFE 0x39 -- 3958
  | .i32AtomicRmwXor => .raw 0xFE 0x3A -- 3966
  | .i64AtomicRmwXor => .raw 0xFE 0x3B -- 3974
  | .i32AtomicRmw8XorU => .raw 0xFE 0x3C -- 3982
  | .i32AtomicRmw16XorU => .raw 0xFE 0x3D -- 3990
  | .i64AtomicRmw8XorU => .raw 0xFE 0x3E -- 3998
  | .i64AtomicRmw16XorU => .raw 0xFE 0x3F -- 4006
  | .i64AtomicRmw32XorU => .raw 0xFE 0x40 -- 4014
  | .i32AtomicRmwXchg => .raw 0xFE 0x41 -- 4022
  | .i64AtomicRmwXchg => .raw 0xFE 0x42 -- 4030
  | .i32AtomicRmw8XchgU => .raw 0xFE 0x43 -- 4038
  | .i32AtomicRmw16XchgU => .raw 0xFE 0x44 -- 4046
  | .i64AtomicRmw8XchgU => .raw 0xFE 0x45 -- 4054
  | .i64AtomicRmw16XchgU => .raw 0xFE 0x46 -- 4062
  | .i64AtomicRmw32XchgU => .raw 0xFE 0x47 -- 4070
  | .i32AtomicRmwCmpxchg => .raw 0xFE 0x48 -- 4078
  | .i64AtomicRmwCmpxchg => .raw 0xFE 0x49 -- 4086
  | .i32AtomicRmw8CmpxchgU => .raw 0xFE 0x4A -- 4094
  | .i32AtomicRmw16CmpxchgU => .raw 0xFE 0x4B -- 4102
  | .i64AtomicRmw8CmpxchgU => .raw 0xFE 0x4C -- 4110
  | .i64AtomicRmw16CmpxchgU => .raw 0xFE 0x4D -- 4118
  | .i64AtomicRmw32CmpxchgU => .raw 0xFE 0x4E -- 4126

/-- Opcodes of the `MemLane` methods (instructions.rs lines 1868-1931). -/
def opcodeMemLane : MemLane → Opcode
  | .v128Load8Lane => .leb 0xFD 0x54#32 -- 1868
  | .v128Load16Lane => .leb 0xFD 0x55#32 -- 1877
  | .v128Load32Lane => .leb 0xFD 0x56#32 -- 1886
  | .v128Load64Lane => .leb 0xFD 0x57#32 -- 1895
  | .v128Store8Lane => .leb 0xFD 0x58#32 -- 1904
  | .v128Store16Lane => .leb 0xFD 0x59#32 -- 1913
  | .v128Store32Lane => .leb 0xFD 0x5A#32 -- 1922
  | .v128Store64Lane => .leb 0xFD 0x5B#32 -- 1931

/-- Opcodes of the `Lane` methods (instructions.rs lines 1956-2060). -/
def opcodeLane : Lane → Opcode
  | .i8x16ExtractLaneS => .leb 0xFD 0x15#32 -- 1956
  | .i8x16ExtractLaneU => .leb 0xFD 0x16#32 -- 1964
  | .i8x16ReplaceLane => .leb 0xFD 0x17#32 -- 1972
  | .i16x8ExtractLaneS => .leb 0xFD 0x18#32 -- 1980
  | .i16x8ExtractLaneU => .leb 0xFD 0x19#32 -- 1988
  | .i16x8ReplaceLane => .leb 0xFD 0x1A#32 -- 1996
  | .i32x4ExtractLane => .leb 0xFD 0x1B#32 -- 2004
  | .i32x4ReplaceLane => .leb 0xFD 0x1C#32 -- 2012
  | .i64x2ExtractLane => .leb 0xFD 0x1D#32 -- 2020
  | .i64x2ReplaceLane => .leb 0xFD 0x1E#32 -- 2028
  | .f32x4ExtractLane => .leb 0xFD 0x1F#32 -- 2036
  | .f32x4ReplaceLane => .leb 0xFD 0x20#32 -- 2044
  | .f64x2ExtractLane => .leb 0xFD 0x21#32 -- 2052
  | .f64x2ReplaceLane => .leb 0xFD 0x22#32 -- 2060

/-- Opcodes of the `Heap` methods (instructions.rs lines 1364-4661). -/
def opcodeHeap : Heap → Opcode
  | .refNull => .one 0xD0 -- 1364
  | .refTestNonNull => .raw 0xFB 0x14 -- 1587
  | .refTestNullable => .raw 0xFB 0x15 -- 1595
  | .refCastNonNull => .raw 0xFB 0x16 -- 1603
  | .refCastNullable => .raw 0xFB 0x17 -- 1611
  | .refCastDescEqNonNull => .leb 0xFB 0x23#32 -- 4653
  | .refCastDescEqNullable => .leb 0xFB 0x24#32 -- 4661

/-- Opcodes of the `Cast` methods (instructions.rs lines 1619-4686). -/
def opcodeCast : Cast → Opcode
  | .brOnCast => .raw 0xFB 0x18 -- 1619
  | .brOnCastFail => .raw 0xFB 0x19 -- 1636
  | .brOnCastDescEq => .leb 0xFB 0x25#32 -- 4669
  | .brOnCastDescEqFail => .leb 0xFB 0x26#32 -- 4686

/-- Opcodes of the `Atomic` methods (instructions.rs lines 4136-4516). -/
def opcodeAtomic : Atomic → Opcode
  | .globalAtomicGet => .raw 0xFE 0x4F -- 4136
  | .globalAtomicSet => .raw 0xFE 0x50 -- 4145
  | .globalAtomicRmwAdd => .raw 0xFE 0x51 -- 4154
  | .globalAtomicRmwSub => .raw 0xFE 0x52 -- 4163
  | .globalAtomicRmwAnd => .raw 0xFE 0x53 -- 4172
  | .globalAtomicRmwOr => .raw 0xFE 0x54 -- 4181
  | .globalAtomicRmwXor => .raw 0xFE 0x55 -- 4190
  | .globalAtomicRmwXchg => .raw 0xFE 0x56 -- 4199
  | .globalAtomicRmwCmpxchg => .raw 0xFE 0x57 -- 4208
  | .tableAtomicGet => .raw 0xFE 0x58 -- 4221
  | .tableAtomicSet => .raw 0xFE 0x59 -- 4230
  | .tableAtomicRmwXchg => .raw 0xFE 0x5A -- 4239
  | .tableAtomicRmwCmpxchg => .raw 0xFE 0x5B -- 4248
  | .arrayAtomicGet => .raw 0xFE 0x67 -- 4422
  | .arrayAtomicGetS => .raw 0xFE 0x68 -- 4431
  | .arrayAtomicGetU => .raw 0xFE 0x69 -- 4440
  | .arrayAtomicSet => .raw 0xFE 0x6A -- 4449
  | .arrayAtomicRmwAdd => .raw 0xFE 0x6B -- 4458
  | .arrayAtomicRmwSub => .raw 0xFE 0x6C -- 4467
  | .arrayAtomicRmwAnd => .raw 0xFE 0x6D -- 4476
  | .arrayAtomicRmwOr => .raw 0xFE 0x6E -- 4485
  | .arrayAtomicRmwXor => .raw 0xFE 0x6F -- 4494
  | .arrayAtomicRmwXchg => .raw 0xFE 0x70 -- 4503
  | .arrayAtomicRmwCmpxchg => .raw 0xFE 0x71 -- 4516

/-- Opcodes of the `Atomic2` methods (instructions.rs lines 4257-4407). -/
def opcodeAtomic2 : Atomic2 → Opcode
  | .structAtomicGet => .raw 0xFE 0x5C -- 4257
  | .structAtomicGetS => .raw 0xFE 0x5D -- 4272
  | .structAtomicGetU => .raw 0xFE 0x5E -- 4287
  | .structAtomicSet => .raw 0xFE 0x5F -- 4302
  | .structAtomicRmwAdd => .raw 0xFE 0x60 -- 4317
  | .structAtomicRmwSub => .raw 0xFE 0x61 -- 4332
  | .structAtomicRmwAnd => .raw 0xFE 0x62 -- 4347
  | .structAtomicRmwOr => .raw 0xFE 0x63 -- 4362
  | .structAtomicRmwXor => .raw 0xFE 0x64 -- 4377
  | .structAtomicRmwXchg => .raw 0xFE 0x65 -- 4392
  | .structAtomicRmwCmpxchg => .raw 0xFE 0x66 -- 4407

end Verif.Instr.Enc
