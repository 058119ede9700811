{
 "claims": [
  {
   "property": "C01",
   "status": "proved",
   "theorems": [
    "Nsimd.Props.Fp16.u16ToF32_exact"
   ],
   "note": "all 2^16 patterns; values in ℚ"
  },
  {
   "property": "C02",
   "status": "proved",
   "theorems": [
    "Nsimd.Props.Fp16.f32ToU16_nearest",
    "Nsimd.Props.Fp16.f32ToU16_special",
    "Nsimd.Props.Fp16.f32ToU16_thresholds",
    "Nsimd.Props.Fp16.f32key_le_iff",
    "Nsimd.Props.Fp16.roundF32_nearest"
   ],
   "note": "f32 comparison and the magic addition are IEEE rules, validated by f32key_le_iff and roundF32_nearest"
  },
  {
   "property": "C03",
   "status": "proved",
   "theorems": [
    "Nsimd.Props.Fp16.f16_roundtrip"
   ],
   "note": ""
  },
  {
   "property": "C04",
   "status": "proved",
   "theorems": [
    "Nsimd.Props.Fp16.f32ToU16_mono",
    "Nsimd.Props.Fp16.f32ToU16_neg"
   ],
   "note": ""
  },
  {
   "property": "C06",
   "status": "proved",
   "theorems": [
    "Nsimd.Props.adds_saturates"
   ],
   "note": "scalar operator, all eight integer types"
  },
  {
   "property": "C07",
   "status": "partial",
   "theorems": [
    "Nsimd.Props.subs_saturates_partial",
    "Nsimd.Props.subs_correct_iff",
    "Nsimd.Props.subs_counterexample",
    "Nsimd.Props.X86.subsU_saturates",
    "Nsimd.Props.X86.subsS_correct_iff",
    "Nsimd.Props.X86.subsS_counterexample"
   ],
   "note": "the property is false for signed subs(a, INT_MIN); exact failure set proved"
  },
  {
   "property": "C09",
   "status": "proved",
   "theorems": [
    "Nsimd.Props.shr_floor_div",
    "Nsimd.Props.shl_mul_pow",
    "Nsimd.Props.shl_defined",
    "Nsimd.Props.shra_floor_div",
    "Nsimd.Props.shift_undefined"
   ],
   "note": ""
  },
  {
   "property": "C44",
   "status": "proved",
   "theorems": [
    "Nsimd.Props.min_max_spec",
    "Nsimd.Props.abs_spec",
    "Nsimd.Props.cmp_laws",
    "Nsimd.Props.cmp_order"
   ],
   "note": ""
  },
  {
   "property": "C48",
   "status": "proved",
   "theorems": [
    "Nsimd.Props.add_wraps_or_ub",
    "Nsimd.Props.sub_wraps_or_ub",
    "Nsimd.Props.neg_wraps_or_ub",
    "Nsimd.Props.mul_wraps_or_ub",
    "Nsimd.Props.div_wraps_or_ub",
    "Nsimd.Props.mul_u16",
    "Nsimd.Props.fma_mod",
    "Nsimd.Props.fma_defined"
   ],
   "note": ""
  },
  {
   "property": "C05",
   "status": "partial",
   "theorems": [
    "Nsimd.Props.Ufp.ufp_range_partial",
    "Nsimd.Props.Ufp.ufp_minus_one",
    "Nsimd.Props.Ufp.ufp_minus_one_iff",
    "Nsimd.Props.Ufp.ufp_comm",
    "Nsimd.Props.Ufp.ufp_max_iff",
    "Nsimd.Props.Ufp.ufp_sign",
    "Nsimd.Props.Ufp.ufp_far_zero",
    "Nsimd.Props.Ufp.dist_value",
    "Nsimd.Props.Ufp.ufp_bit_length",
    "Nsimd.Props.Ufp.ufp_types_max_iff"
   ],
   "note": "the claimed range [0, M+1] is false: -1 occurs, exactly as in ufp_minus_one_iff; everything else proved"
  },
  {
   "property": "C08",
   "status": "proved",
   "theorems": [
    "Nsimd.Props.X86.addsU_saturates",
    "Nsimd.Props.X86.addsS_saturates"
   ],
   "note": "every lane width; all three select variants"
  },
  {
   "property": "C10",
   "status": "proved",
   "theorems": [
    "Nsimd.Props.X86.shl2n_lanes",
    "Nsimd.Props.X86.shr2n_lanes",
    "Nsimd.Props.X86.shraI8_lanes",
    "Nsimd.Props.X86.shl32for8_lanes",
    "Nsimd.Props.X86.shr32for8_lanes",
    "Nsimd.Props.X86.shl32for8_overflow"
   ],
   "note": "counts up to 8 for the 32-bit KNL path; shl32for8_overflow shows the leak beyond"
  },
  {
   "property": "C11",
   "status": "proved",
   "theorems": [
    "Nsimd.Props.X86.mul8_lanes",
    "Nsimd.Props.X86.narrow_halves"
   ],
   "note": ""
  },
  {
   "property": "C12",
   "status": "proved",
   "theorems": [
    "Nsimd.Props.X86.unsigned_cmp_exact",
    "Nsimd.Props.X86.signed_cmp_exact",
    "Nsimd.Props.X86.eq64_exact",
    "Nsimd.Props.X86.gt64_exact"
   ],
   "note": ""
  },
  {
   "property": "C49",
   "status": "proved",
   "theorems": [
    "Nsimd.Props.X86.abs_exact",
    "Nsimd.Props.X86.minmax_exact",
    "Nsimd.Props.X86.split_lanewise"
   ],
   "note": ""
  },
  {
   "property": "C13",
   "status": "proved",
   "theorems": [
    "Nsimd.Props.Cpu.cmp_rep",
    "Nsimd.Props.Cpu.set1l_rep",
    "Nsimd.Props.Cpu.loadl_rep",
    "Nsimd.Props.Cpu.mask_tail_rep",
    "Nsimd.Props.Cpu.toLogical_rep",
    "Nsimd.Props.Cpu.logical_ops_rep",
    "Nsimd.Props.Cpu.produced_canonical",
    "Nsimd.Props.X86.mask_ops",
    "Nsimd.Props.X86.loadl512_spec",
    "Nsimd.Props.X86.loadlF16_bits",
    "Nsimd.Props.X86.loadlF16_negzero_counterexample"
   ],
   "note": "CPU backend and AVX-512 mask registers; loadlF16_negzero_counterexample: the AVX-512 f16 loadl reads -0.0 as true"
  },
  {
   "property": "C14",
   "status": "proved",
   "theorems": [
    "Nsimd.Props.Cpu.all_any_nbtrue",
    "Nsimd.Props.Cpu.all_any_laws",
    "Nsimd.Props.X86.sse_all_any",
    "Nsimd.Props.X86.avx2_all_any",
    "Nsimd.Props.X86.avx_all_any",
    "Nsimd.Props.X86.float_all_any",
    "Nsimd.Props.X86.avx512_all_any",
    "Nsimd.Props.X86.f16_all_any",
    "Nsimd.Props.X86.nbtrue_counts",
    "Nsimd.Props.X86.nbtrue512_counts"
   ],
   "note": "CPU backend with any lane count; x86 movemask and mask-register forms"
  },
  {
   "property": "C16",
   "status": "proved",
   "theorems": [
    "Nsimd.Props.Cpu.store_defined",
    "Nsimd.Props.Cpu.store_writes",
    "Nsimd.Props.Cpu.load_reads",
    "Nsimd.Props.Cpu.load_store_copies",
    "Nsimd.Props.Cpu.load_store_copies_f16",
    "Nsimd.Props.Cpu.store_load_id",
    "Nsimd.Props.Cpu.store_load_f16"
   ],
   "note": "CPU backend"
  },
  {
   "property": "C17",
   "status": "proved",
   "theorems": [
    "Nsimd.Props.Cpu.maskoLoad_spec",
    "Nsimd.Props.Cpu.maskzLoad_spec",
    "Nsimd.Props.Cpu.maskStore_spec"
   ],
   "note": "CPU backend; masked-off addresses may be unmapped"
  },
  {
   "property": "C18",
   "status": "proved",
   "theorems": [
    "Nsimd.Props.Cpu.maskForLoopTail_spec",
    "Nsimd.Props.Cpu.tailLoop_correct",
    "Nsimd.Props.Cpu.maskForLoopTail_overflow",
    "Nsimd.Props.X86.maskForLoopTail_x86",
    "Nsimd.Props.X86.maskForLoopTail_agree",
    "Nsimd.Props.X86.maskForLoopTail_x86_overflow"
   ],
   "note": "maskForLoopTail_overflow records the int overflow near INT_MAX"
  },
  {
   "property": "C19",
   "status": "proved",
   "theorems": [
    "Nsimd.Props.Cpu.loadDeg_reads",
    "Nsimd.Props.Cpu.storeDeg_spec",
    "Nsimd.Props.Cpu.storeDeg_loadDeg",
    "Nsimd.Props.Cpu.loadDeg_storeDeg"
   ],
   "note": ""
  },
  {
   "property": "C22",
   "status": "proved",
   "theorems": [
    "Nsimd.Props.Cpu.gather_reads",
    "Nsimd.Props.Cpu.scatter_spec",
    "Nsimd.Props.Cpu.scatter_gather",
    "Nsimd.Props.Cpu.linear_offsets",
    "Nsimd.Props.Cpu.linear_overflow",
    "Nsimd.Props.Cpu.maskoGather_spec",
    "Nsimd.Props.Cpu.maskScatter_spec"
   ],
   "note": "CPU backend"
  },
  {
   "property": "C23",
   "status": "proved",
   "theorems": [
    "Nsimd.Props.Cpu.zip_interleaves",
    "Nsimd.Props.Cpu.unzip_separates",
    "Nsimd.Props.Cpu.zip_unzip_inverse",
    "Nsimd.Props.X86.zipHalf_interleaves",
    "Nsimd.Props.X86.unzipHalf_separates",
    "Nsimd.Props.X86.unzip_zip",
    "Nsimd.Props.X86.zip_unzip",
    "Nsimd.Props.X86.zipHalfF16_interleaves",
    "Nsimd.Props.X86.unzipHalfF16_separates"
   ],
   "note": "CPU backend with any lane count; every x86 instruction set and type"
  },
  {
   "property": "C24",
   "status": "proved",
   "theorems": [
    "Nsimd.Props.Cpu.upcvt_values",
    "Nsimd.Props.Cpu.upcvt_preserves",
    "Nsimd.Props.Cpu.downcvt_low",
    "Nsimd.Props.Cpu.cvt_values",
    "Nsimd.Props.Cpu.downcvt_upcvt"
   ],
   "note": "CPU backend"
  },
  {
   "property": "C25",
   "status": "partial",
   "theorems": [
    "Nsimd.Props.Cpu.reinterpret_bits",
    "Nsimd.Props.Cpu.enc_dec_enc",
    "Nsimd.Props.Cpu.reinterpret_f16_u16",
    "Nsimd.Props.Cpu.reinterpret_u16_f16_partial",
    "Nsimd.Props.Cpu.reinterpret_u16_f16_counterexample",
    "Nsimd.Props.Cpu.bitwise_bits_partial",
    "Nsimd.Props.Cpu.bitwise_f16_counterexample"
   ],
   "note": "false for f16 on the CPU backend: NaN payloads and bitwise operators; all other types proved"
  },
  {
   "property": "C26",
   "status": "proved",
   "theorems": [
    "Nsimd.Props.Cpu.toLogical_toMask",
    "Nsimd.Props.Cpu.toLogical_toMask_f16",
    "Nsimd.Props.Cpu.ifElse1_selects",
    "Nsimd.Props.X86.toMask_ifElse",
    "Nsimd.Props.X86.ifElse_canon"
   ],
   "note": ""
  },
  {
   "property": "C47",
   "status": "proved",
   "theorems": [
    "Nsimd.Props.Cpu.vector_scalar_agree",
    "Nsimd.Props.Cpu.scalar_xorl_counterexample"
   ],
   "note": "expressions where xorl is applied to 0/1 truth values; the scalar xorl counterexample is recorded"
  },
  {
   "property": "C50",
   "status": "proved",
   "theorems": [
    "Nsimd.Props.Tutorial.uppercase_agree"
   ],
   "note": ""
  },
  {
   "property": "C15",
   "status": "proved",
   "theorems": [
    "Nsimd.Props.Popcnt.loop_counts",
    "Nsimd.Props.Popcnt.halves_counts",
    "Nsimd.Props.Popcnt.halves_loop",
    "Nsimd.Props.Popcnt.loop_range"
   ],
   "note": "the portable fallbacks; the compiler builtins are not modelled"
  },
  {
   "property": "C51",
   "status": "proved",
   "theorems": [
    "Nsimd.Props.X86.storel512_spec",
    "Nsimd.Props.X86.loadl512_spec",
    "Nsimd.Props.X86.storel_loadl512"
   ],
   "note": ""
  },
  {
   "property": "C52",
   "status": "proved",
   "theorems": [
    "Nsimd.Props.X86.splitCmp8_bits",
    "Nsimd.Props.X86.splitCmp16_bits"
   ],
   "note": ""
  },
  {
   "property": "C20",
   "status": "partial",
   "theorems": [
    "Nsimd.Props.X86.loadDeg_streams",
    "Nsimd.Props.X86.loadDeg_order_iff",
    "Nsimd.Props.X86.load2_avx_f32_counterexample"
   ],
   "note": "false for AVX/AVX2/AVX-512 load2 and load4 of the types listed in `ordered`: the lanes come out permuted; loadDeg_order_iff proves the exact set of combinations that keep the order. f16 is not modelled"
  },
  {
   "property": "C21",
   "status": "proved",
   "theorems": [
    "Nsimd.Props.X86.storeDeg_loadDeg",
    "Nsimd.Props.X86.loadDeg_storeDeg",
    "Nsimd.Props.X86.storeDeg_streams",
    "Nsimd.Props.X86.storeDeg_order_iff"
   ],
   "note": "every x86 instruction set and element type except f16"
  },
  {
   "property": "C27",
   "status": "proved",
   "theorems": [
    "Nsimd.Props.Pack.flat_spec",
    "Nsimd.Props.Pack.load_long",
    "Nsimd.Props.Pack.loadl_long",
    "Nsimd.Props.Pack.maskoLoad_long",
    "Nsimd.Props.Pack.maskzLoad_long",
    "Nsimd.Props.Pack.store_long",
    "Nsimd.Props.Pack.storel_long",
    "Nsimd.Props.Pack.maskStore_long",
    "Nsimd.Props.Pack.loadDeg_long",
    "Nsimd.Props.Pack.storeDeg_long",
    "Nsimd.Props.Pack.map1_long",
    "Nsimd.Props.Pack.map2_long",
    "Nsimd.Props.Pack.map3_long",
    "Nsimd.Props.Pack.lanewise_long",
    "Nsimd.Props.Pack.assign_long",
    "Nsimd.Props.Pack.splat_long",
    "Nsimd.Props.Pack.all_any_long",
    "Nsimd.Props.Pack.nbtrue_long",
    "Nsimd.Props.Pack.addv_long"
   ],
   "note": "CPU backend operators with any lane count; addv in exact arithmetic (any commutative monoid)"
  },
  {
   "property": "C28",
   "status": "partial",
   "theorems": [
    "Nsimd.Props.Pack.positions_flatten_partial",
    "Nsimd.Props.Pack.positions_counterexample",
    "Nsimd.Props.Pack.gather_reads",
    "Nsimd.Props.Pack.scatter_writes",
    "Nsimd.Props.Pack.gatherLinear_reads",
    "Nsimd.Props.Pack.scatterLinear_writes",
    "Nsimd.Props.Pack.iota_lanes",
    "Nsimd.Props.Pack.maskForLoopTail_lanes"
   ],
   "note": "false for N > 1 (witnesses for all six operators); holds for N = 1; what the code does is characterised exactly for every N"
  },
  {
   "property": "C29",
   "status": "proved",
   "theorems": [
    "Nsimd.Props.Pack.toPack_concat",
    "Nsimd.Props.Pack.toPackInterleave_order"
   ],
   "note": "to_pack_interleave of a packx1<T,1> does not compile in the code and is excluded"
  },
  {
   "property": "C30",
   "status": "proved",
   "theorems": [
    "Nsimd.Props.Tet1d.assign_correct",
    "Nsimd.Props.Tet1d.size_inputs"
   ],
   "note": "integer element types, CPU kernels; pack of any length; inputs may be the destination or start after it"
  },
  {
   "property": "C31",
   "status": "proved",
   "theorems": [
    "Nsimd.Props.Tet1d.maskAssign_correct",
    "Nsimd.Props.Tet1d.maskOk_of_defined",
    "Nsimd.Props.Tet1d.maskAssign_evaluates_unselected"
   ],
   "note": "exact definedness is proved; finding: the vector part also evaluates unselected elements"
  },
  {
   "property": "C32",
   "status": "proved",
   "theorems": [
    "Nsimd.Props.Tet1d.computeSize_spec",
    "Nsimd.Props.Tet1d.computeSize3_spec",
    "Nsimd.Props.Tet1d.computeSize3_order",
    "Nsimd.Props.Tet1d.subrange_spec",
    "Nsimd.Props.Tet1d.subrange_single"
   ],
   "note": "findings: three sizes are accepted only when one of the first two is not a scalar; one-element subranges are refused"
  },
  {
   "property": "C33",
   "status": "proved",
   "theorems": [
    "Nsimd.Props.Spmd.launch_calls",
    "Nsimd.Props.Spmd.launch_partition"
   ],
   "note": "n + len must not overflow nsimd_nat, as computed by the loop"
  },
  {
   "property": "C34",
   "status": "partial",
   "theorems": [
    "Nsimd.Props.Spmd.stmt_refines_partial",
    "Nsimd.Props.Spmd.kernel_refines_partial",
    "Nsimd.Props.Spmd.launchKernel_partial",
    "Nsimd.Props.Spmd.continue_counterexample",
    "Nsimd.Props.Spmd.setl_counterexample"
   ],
   "note": "false with k_continue and with k_set on k_bool variables in SIMD kernels (witnesses); proved for all other kernels, including device functions, nested loops, break and return, for every terminating run"
  },
  {
   "property": "C35",
   "status": "partial",
   "theorems": [
    "Nsimd.Props.Spmd.kernel_terminates_partial",
    "Nsimd.Props.Spmd.break_counterexample",
    "Nsimd.Props.Spmd.inactive_counterexample"
   ],
   "note": "false for loops with k_break and for loops reached with inactive lanes (witnesses); proved for sequences of straight code and loops with straight bodies"
  },
  {
   "property": "C36",
   "status": "proved",
   "theorems": [
    "Nsimd.Props.Random.mulhilo64_exact",
    "Nsimd.Props.Random.mulhilo32_parts_exact",
    "Nsimd.Props.Random.mulhilo32_exact",
    "Nsimd.Props.Random.refMulhilo32_exact",
    "Nsimd.Props.Random.refMulhilo_exact",
    "Nsimd.Props.Random.mulhiloW_eq_ref"
   ],
   "note": "library and reference versions; mulhilo32 on vectors of any length"
  },
  {
   "property": "C37",
   "status": "proved",
   "theorems": [
    "Nsimd.Props.Random.philox2_bijective",
    "Nsimd.Props.Random.philox4_bijective",
    "Nsimd.Props.Random.philox2_reference",
    "Nsimd.Props.Random.philox4_reference"
   ],
   "note": "the reference supports 1 to 16 rounds"
  },
  {
   "property": "C38",
   "status": "proved",
   "theorems": [
    "Nsimd.Props.Random.threefry2_bijective",
    "Nsimd.Props.Random.threefry4_bijective",
    "Nsimd.Props.Random.threefry2_spec",
    "Nsimd.Props.Random.threefry4_spec",
    "Nsimd.Props.Random.threefry2_reference",
    "Nsimd.Props.Random.threefry4_reference"
   ],
   "note": "agreement with the repository's reference up to the 32 and 72 rounds it supports, and with the published definition for every number of rounds (after an odd number of rounds words 1 and 3 of the 4x code are exchanged)"
  },
  {
   "property": "C39",
   "status": "partial",
   "theorems": [
    "Nsimd.Props.Alloc.maxAlignment_ok",
    "Nsimd.Props.Alloc.alignedAlloc_spec",
    "Nsimd.Props.Alloc.allocate11_partial",
    "Nsimd.Props.Alloc.allocate11_counterexample",
    "Nsimd.Props.Alloc.allocate98_partial",
    "Nsimd.Props.Alloc.allocate98_counterexample"
   ],
   "note": "64-bit platforms, POSIX allocator; false from 2^63 bytes on: the product n*sizeof(T) overflows nsimd_nat after passing the check (witnesses)"
  },
  {
   "property": "C40",
   "status": "partial",
   "theorems": [
    "Nsimd.Props.Launch.spmd_covers_partial",
    "Nsimd.Props.Launch.spmd_cuda_counterexample",
    "Nsimd.Props.Launch.spmd_rocm_counterexample",
    "Nsimd.Props.Launch.tet1d_covers_partial",
    "Nsimd.Props.Launch.tet1d_default",
    "Nsimd.Props.Launch.tet1d_launches",
    "Nsimd.Props.Launch.tet1d_counterexample",
    "Nsimd.Props.Launch.tet1d_empty",
    "Nsimd.Props.Launch.fill_covers_partial",
    "Nsimd.Props.Launch.kernelParamCpu_covers"
   ],
   "note": "false when the grid exceeds the range of the 32-bit thread index (witnesses); tet1d asserts on empty expressions"
  },
  {
   "property": "C41",
   "status": "partial",
   "theorems": [
    "Nsimd.Props.Alloc.pairMalloc_cpu_partial",
    "Nsimd.Props.Alloc.pairCalloc_cpu_partial",
    "Nsimd.Props.Alloc.pairMalloc_overflow",
    "Nsimd.Props.Alloc.pairMalloc_gpu_partial",
    "Nsimd.Props.Alloc.pairMalloc_gpu_counterexample",
    "Nsimd.Props.Alloc.pairMalloc_gpu_null",
    "Nsimd.Props.Alloc.deviceCalloc_spec",
    "Nsimd.Props.Alloc.copies_transfer",
    "Nsimd.Props.Alloc.copies_null",
    "Nsimd.Props.Alloc.pairFree_restores"
   ],
   "note": "false on CUDA and ROCm for elements of more than one byte: the host block has sz bytes and every copy is out of bounds; on the CPU false only when sz*sizeof(T) overflows size_t. GPU pair_calloc and pair_free do not compile; oneAPI is not modelled"
  },
  {
   "property": "C42",
   "status": "partial",
   "theorems": [
    "Nsimd.Props.FloatClass.isnan_partial",
    "Nsimd.Props.FloatClass.isinf_partial",
    "Nsimd.Props.FloatClass.isnanF16_class",
    "Nsimd.Props.FloatClass.isinfF16_never",
    "Nsimd.Props.FloatClass.isnormal_class",
    "Nsimd.Props.FloatClass.isnormalF16_class",
    "Nsimd.Props.FloatClass.class_counterexample"
   ],
   "note": "isnan and isinf proved for f32 and f64; false for f16 and for isnormal, what they compute is characterised exactly"
  },
  {
   "property": "C43",
   "status": "proved",
   "theorems": [
    "Nsimd.Props.Round.roundToEven_nearest",
    "Nsimd.Props.Round.roundToEven_special",
    "Nsimd.Props.Round.roundToEven_int",
    "Nsimd.Props.Round.nearestEven_unique",
    "Nsimd.Props.Round.trunc_towardZero",
    "Nsimd.Props.Round.trunc_special"
   ],
   "note": "any binary format and any rounding mode of the intermediate differences; floor and ceil are libm calls; the sign of zero is not modelled"
  },
  {
   "property": "C45",
   "status": "partial",
   "theorems": [
    "Nsimd.Props.FixedPoint.storage_smallest",
    "Nsimd.Props.FixedPoint.add_exact",
    "Nsimd.Props.FixedPoint.sub_exact",
    "Nsimd.Props.FixedPoint.neg_exact",
    "Nsimd.Props.FixedPoint.mul_rounded_down_partial",
    "Nsimd.Props.FixedPoint.div_rounded_to_zero",
    "Nsimd.Props.FixedPoint.abs_exact",
    "Nsimd.Props.FixedPoint.mul_rt0_undefined",
    "Nsimd.Props.FixedPoint.div_zero_undefined",
    "Nsimd.Props.FixedPoint.sqrt_zero_undefined",
    "Nsimd.Props.FixedPoint.float2int_nearest",
    "Nsimd.Props.FixedPoint.float_roundtrip",
    "Nsimd.Props.FixedPoint.float_roundtrip_lossy",
    "Nsimd.Props.FixedPoint.exp_int",
    "Nsimd.Props.FixedPoint.simdMul_eq"
   ],
   "note": "every format with a storage type; mul needs rt > 0 (undefined otherwise, proved); left shifts of negative numbers have their C++20 meaning; conversions for rt < 31 and raw values that fit the float significand (lossy beyond, proved); sqrt(0) undefined (proved)"
  },
  {
   "property": "C46",
   "status": "partial",
   "theorems": [
    "Nsimd.Props.FixedPoint.cmp_masked",
    "Nsimd.Props.FixedPoint.cmp_partial",
    "Nsimd.Props.FixedPoint.cmp_sound_partial",
    "Nsimd.Props.FixedPoint.cmp_exact_iff",
    "Nsimd.Props.FixedPoint.eq_wrong",
    "Nsimd.Props.FixedPoint.simd_cmp_exact",
    "Nsimd.Props.FixedPoint.floor_masked",
    "Nsimd.Props.FixedPoint.floor_partial",
    "Nsimd.Props.FixedPoint.floor_wrong",
    "Nsimd.Props.FixedPoint.floor_exact_iff",
    "Nsimd.Props.FixedPoint.ceil_partial",
    "Nsimd.Props.FixedPoint.ceil_wrong",
    "Nsimd.Props.FixedPoint.floor_ceil_undefined",
    "Nsimd.Props.FixedPoint.isInt_masked",
    "Nsimd.Props.FixedPoint.isInt_wrong"
   ],
   "note": "the claim is false for every format with fractional bits (proved: 0 == 2^-rt, floor(1) = 0, ceil(2) = 1); proved exactly what the functions compute and where they are right"
  },
  {
   "property": "C53",
   "status": "proved",
   "theorems": [
    "Nsimd.Props.Ppc.loadDeg_spec",
    "Nsimd.Props.Ppc.storeDeg_spec",
    "Nsimd.Props.Ppc.storeDeg_loadDeg",
    "Nsimd.Props.Ppc.loadF16_spec",
    "Nsimd.Props.Ppc.storeF16_spec"
   ],
   "note": "bytes of registers as on the targeted little or big endian machine are numbered in memory order; f16 by its lane loops"
  },
  {
   "property": "C54",
   "status": "partial",
   "theorems": [
    "Nsimd.Props.Ppc.zipHalf_interleaves",
    "Nsimd.Props.Ppc.unzipHalf_separates",
    "Nsimd.Props.Ppc.unzip_zip",
    "Nsimd.Props.Ppc.zipHalfF16_interleaves",
    "Nsimd.Props.Ppc.unzipHalfF16_separates",
    "Nsimd.Props.Ppc.reverse_spec",
    "Nsimd.Props.PpcLane.reverse64_spec",
    "Nsimd.Props.PpcLane.reverseF16_partial",
    "Nsimd.Props.PpcLane.reverseF16_iff"
   ],
   "note": "false for reverse of f16, which keeps the order of its two registers: right iff the registers are equal (proved)"
  },
  {
   "property": "C55",
   "status": "partial",
   "theorems": [
    "Nsimd.Props.Arm.maskForLoopTail_partial",
    "Nsimd.Props.Arm.maskForLoopTail_iff",
    "Nsimd.Props.Arm.maskForLoopTail_widths",
    "Nsimd.Props.Arm.maskForLoopTail_i8_counterexample"
   ],
   "note": "false exactly for i8 on registers of more than 1024 bits (SVE), proved; integer lane types, with the comparisons lane by lane"
  },
  {
   "property": "C56",
   "status": "proved",
   "theorems": [
    "Nsimd.Props.Arm.allNeon_spec",
    "Nsimd.Props.Arm.anyNeon_spec",
    "Nsimd.Props.Arm.allAarch64_spec",
    "Nsimd.Props.Arm.anyAarch64_spec",
    "Nsimd.Props.Arm.allAarch64_64_spec",
    "Nsimd.Props.Arm.anyAarch64_64_spec",
    "Nsimd.Props.Arm.allSve_anySve_spec",
    "Nsimd.Props.Arm.nbtrueNeon_spec",
    "Nsimd.Props.Arm.nbtrueAarch64_spec",
    "Nsimd.Props.Arm.nbtrueAarch64_64_spec",
    "Nsimd.Props.Arm.nbtrueSve_spec",
    "Nsimd.Props.Arm.f16_pairs",
    "Nsimd.Props.Ppc.lop2_spec",
    "Nsimd.Props.Ppc.lnot1_spec",
    "Nsimd.Props.Ppc.lop2_64_spec",
    "Nsimd.Props.Ppc.lnot1_64_spec",
    "Nsimd.Props.Ppc.set1l_toLogical_spec",
    "Nsimd.Props.Ppc.set1l_toLogical_64_spec",
    "Nsimd.Props.Ppc.ifElse1_spec",
    "Nsimd.Props.Ppc.ifElse1_64_spec",
    "Nsimd.Props.Ppc.all_any_spec",
    "Nsimd.Props.Ppc.nbtrue_spec",
    "Nsimd.Props.Ppc.nbtrue_64_spec"
   ],
   "note": ""
  },
  {
   "property": "C57",
   "status": "partial",
   "theorems": [
    "Nsimd.Props.Arm.shiftsNeon_spec",
    "Nsimd.Props.Arm.shiftsSve_spec",
    "Nsimd.Props.Ppc.shifts_partial",
    "Nsimd.Props.Ppc.shra_unsigned_iff",
    "Nsimd.Props.Ppc.shra_counterexample"
   ],
   "note": "false for shra of unsigned types on POWER: vec_sra replicates the top bit; the failing set is characterised exactly"
  },
  {
   "property": "C58",
   "status": "proved",
   "theorems": [
    "Nsimd.Props.Arm.fma_spec",
    "Nsimd.Props.Ppc.fma_spec"
   ],
   "note": ""
  },
  {
   "property": "C59",
   "status": "proved",
   "theorems": [
    "Nsimd.Props.Arm.upcvt_spec",
    "Nsimd.Props.Arm.upcvt_value",
    "Nsimd.Props.Arm.downcvt_spec",
    "Nsimd.Props.Arm.downcvtSve_spec",
    "Nsimd.Props.Ppc.upcvt_spec",
    "Nsimd.Props.Ppc.upcvt32_spec",
    "Nsimd.Props.Ppc.downcvt_spec",
    "Nsimd.Props.Ppc.downcvt64_spec"
   ],
   "note": ""
  },
  {
   "property": "C60",
   "status": "partial",
   "theorems": [
    "Nsimd.Props.Ppc.gather_reads",
    "Nsimd.Props.Ppc.gatherF16_reads",
    "Nsimd.Props.Ppc.gatherF16_counterexample",
    "Nsimd.Props.Ppc.gatherLinear_reads",
    "Nsimd.Props.Ppc.scatter_spec",
    "Nsimd.Props.Ppc.scatterLinear_spec",
    "Nsimd.Props.Ppc.maskozLoad_spec",
    "Nsimd.Props.Ppc.maskozLoadF16_spec",
    "Nsimd.Props.Ppc.maskStore_spec"
   ],
   "note": "false for gather of f16, where every lane reads the offset of lane 0 (proved); the linear forms need products that fit an int"
  },
  {
   "property": "C61",
   "status": "partial",
   "theorems": [
    "Nsimd.Props.Addv.sumsOnce_exact",
    "Nsimd.Props.Addv.sumsOnce_error",
    "Nsimd.Props.Addv.sse_sumsOnce",
    "Nsimd.Props.Addv.avx_sumsOnce",
    "Nsimd.Props.Addv.avx512_sumsOnce",
    "Nsimd.Props.Addv.neon_sumsOnce_partial",
    "Nsimd.Props.Addv.neonFp16_value",
    "Nsimd.Props.Addv.neonFp16_counterexample",
    "Nsimd.Props.Addv.sve_sumsOnce",
    "Nsimd.Props.Addv.sequential_sumsOnce",
    "Nsimd.Props.Addv.ppc16_sumsOnce"
   ],
   "note": "false for f16 on NEON and AArch64 with NSIMD_ARM_FP16: lanes 0, 3, 4 and 7 are counted twice and the others lost (proved)"
  },
  {
   "property": "C62",
   "status": "proved",
   "theorems": [
    "Nsimd.Props.DoubleDouble.add2_11_exact",
    "Nsimd.Props.DoubleDouble.add11_exact",
    "Nsimd.Props.DoubleDouble.sub11_exact",
    "Nsimd.Props.DoubleDouble.normalize_exact",
    "Nsimd.Props.DoubleDouble.normalize_idem",
    "Nsimd.Props.DoubleDouble.normalize_normal",
    "Nsimd.Props.DoubleDouble.add2_21_remainder",
    "Nsimd.Props.DoubleDouble.add21_remainder",
    "Nsimd.Props.DoubleDouble.add12_remainder",
    "Nsimd.Props.DoubleDouble.add2_22_error",
    "Nsimd.Props.DoubleDouble.add22_error",
    "Nsimd.Props.DoubleDouble.sub22_error",
    "Nsimd.Props.DoubleDouble.scale_exact"
   ],
   "note": "lanes are rational numbers rounded to nearest with gradual underflow; overflow, NaN and the sign of zero are not modelled"
  },
  {
   "property": "C63",
   "status": "proved",
   "theorems": [
    "Nsimd.Props.DoubleDouble.fma_mul11_exact",
    "Nsimd.Props.DoubleDouble.fma_mul21_remainder",
    "Nsimd.Props.DoubleDouble.fma_squ2_remainder",
    "Nsimd.Props.DoubleDouble.fma_mul22_error",
    "Nsimd.Props.DoubleDouble.fma_mul22_1_error",
    "Nsimd.Props.DoubleDouble.fma_squ2_1_error",
    "Nsimd.Props.DoubleDouble.fma_rec11_error",
    "Nsimd.Props.DoubleDouble.fma_rec2_error",
    "Nsimd.Props.DoubleDouble.fma_div22_error",
    "Nsimd.Props.DoubleDouble.upper64_splits",
    "Nsimd.Props.DoubleDouble.upper32_splits",
    "Nsimd.Props.DoubleDouble.nofma64_mul11_error",
    "Nsimd.Props.DoubleDouble.nofma32_mul11_exact",
    "Nsimd.Props.DoubleDouble.nofma64_mul11_inexact",
    "Nsimd.Props.DoubleDouble.nofma_mul21_error",
    "Nsimd.Props.DoubleDouble.nofma_mul22_error",
    "Nsimd.Props.DoubleDouble.nofma_squ2_error",
    "Nsimd.Props.DoubleDouble.nofma_rec11_error"
   ],
   "note": "the non-FMA quotient, the reciprocal of a pair and square roots are not modelled; the f64 product without FMA is not always exact (witness)"
  },
  {
   "property": "C64",
   "status": "partial",
   "theorems": [
    "Nsimd.Props.X86Lane.setLane_spec",
    "Nsimd.Props.X86Lane.getLane_spec",
    "Nsimd.Props.X86Lane.emulTrick_spec",
    "Nsimd.Props.X86Lane.emulTrick_isSome",
    "Nsimd.Props.X86Lane.div_spec",
    "Nsimd.Props.X86Lane.mul_spec",
    "Nsimd.Props.X86Lane.shra_spec",
    "Nsimd.Props.X86Lane.emulBuf_partial",
    "Nsimd.Props.X86Lane.emulBuf_counterexample"
   ],
   "note": "false for the variant of 32-bit builds: it stores with aligned instructions into local arrays without alignment, which faults unless the arrays happen to be aligned (exact condition and witness proved)"
  },
  {
   "property": "C65",
   "status": "proved",
   "theorems": [
    "Nsimd.Props.X86Mem.maskozLoadBuf_spec",
    "Nsimd.Props.X86Mem.maskozLoadKnl_spec",
    "Nsimd.Props.X86Mem.maskozLoadAvx_spec",
    "Nsimd.Props.X86Mem.maskLoad512_spec",
    "Nsimd.Props.X86Mem.maskozLoadF16_spec",
    "Nsimd.Props.X86Mem.maskStoreKnl_spec",
    "Nsimd.Props.X86Mem.maskStoreSimd_spec",
    "Nsimd.Props.X86Mem.maskStore512_spec",
    "Nsimd.Props.X86Mem.maskStoreF16_spec",
    "Nsimd.Props.X86Mem.maskStoreAvxSmall_spec"
   ],
   "note": "alignment is not modelled; instructions by their documented semantics"
  },
  {
   "property": "C66",
   "status": "proved",
   "theorems": [
    "Nsimd.Props.X86Mem.scatterBuf_spec",
    "Nsimd.Props.X86Mem.scatterF16_spec",
    "Nsimd.Props.X86Mem.scatter512_spec",
    "Nsimd.Props.X86Mem.scatterLinearBuf_spec",
    "Nsimd.Props.X86Mem.scatterLinear512_spec",
    "Nsimd.Props.X86Mem.scatterLinearTrick_spec",
    "Nsimd.Props.X86Mem.gatherBuf_spec",
    "Nsimd.Props.X86Mem.maskozGatherF16_spec",
    "Nsimd.Props.X86Mem.gatherSimd_spec",
    "Nsimd.Props.X86Mem.gatherLinearBuf_spec",
    "Nsimd.Props.X86Mem.gatherLinear512_spec",
    "Nsimd.Props.X86Mem.gatherLinearTrick_spec",
    "Nsimd.Props.X86Mem.linear512_spec",
    "Nsimd.Props.X86Mem.loadF16_spec",
    "Nsimd.Props.X86Mem.storeF16_spec"
   ],
   "note": "conversions of f16 lanes are those of C01/C02, passed as a parameter"
  },
  {
   "property": "C67",
   "status": "partial",
   "theorems": [
    "Nsimd.Props.FixedSqrt.sqrt_bound_partial",
    "Nsimd.Props.FixedSqrt.sqrt_converged_partial",
    "Nsimd.Props.FixedSqrt.sqrt_counterexample",
    "Nsimd.Props.FixedSqrt.sqrt_overflow",
    "Nsimd.Props.FixedSqrt.sqrt_zero_undefined",
    "Nsimd.Props.FixedSqrt.exp_zero",
    "Nsimd.Props.FixedSqrt.exp_neg"
   ],
   "note": "sqrt is right to one unit for arguments from 2^-12 to 2^12; false for larger ones, where ten iterations do not suffice, near the top of the range, where the sums overflow, and for zero (witnesses)"
  },
  {
   "property": "C68",
   "status": "partial",
   "theorems": [
    "Nsimd.Props.X86Cvt.upcvtII_spec",
    "Nsimd.Props.X86Cvt.downcvtII_spec",
    "Nsimd.Props.X86Cvt.cvtII_spec",
    "Nsimd.Props.X86Cvt.cvtIF_spec",
    "Nsimd.Props.X86Cvt.cvtI16F16_spec",
    "Nsimd.Props.X86Cvt.upcvtI32F64_spec",
    "Nsimd.Props.X86Cvt.upcvtIF_spec",
    "Nsimd.Props.X86Cvt.upcvtI8F16_spec",
    "Nsimd.Props.X86Cvt.downcvt32F16_spec",
    "Nsimd.Props.X86Cvt.downcvt64F32_spec_partial",
    "Nsimd.Props.X86Cvt.downcvt64F32_counterexample",
    "Nsimd.Props.X86Cvt.cvtFI_emulated",
    "Nsimd.Props.X86Cvt.cvtFI_instr_partial",
    "Nsimd.Props.X86Cvt.cvtFI_counterexample",
    "Nsimd.Props.X86Cvt.cvtF16I16_spec",
    "Nsimd.Props.X86Cvt.downcvtFI_spec",
    "Nsimd.Props.X86Cvt.downcvtF16I8_spec",
    "Nsimd.Props.X86Cvt.upcvtF16I32_spec",
    "Nsimd.Props.X86Cvt.upcvtFI_spec_partial",
    "Nsimd.Props.X86Cvt.upcvtFI_counterexample",
    "Nsimd.Props.X86Cvt.upcvtFU_counterexample",
    "Nsimd.Props.X86Cvt.upcvtF32F64_spec",
    "Nsimd.Props.X86Cvt.downcvtF64F32_spec",
    "Nsimd.Props.X86Cvt.usesInstr_iff"
   ],
   "note": "false for floats to integers of the same size where an instruction is used, which rounds to nearest (exact condition and witnesses), for f32 to 64-bit integers, which goes through 32-bit ones, and for i64 to f32 on AVX-512, which does too (witnesses for all values out of range)"
  },
  {
   "property": "C69",
   "status": "proved",
   "theorems": [
    "Nsimd.Props.CpuLogMem.int_spec",
    "Nsimd.Props.CpuLogMem.f16_spec",
    "Nsimd.Props.CpuLogMem.f32_spec",
    "Nsimd.Props.CpuLogMem.f64_spec",
    "Nsimd.Props.CpuLogMem.loadl_storel",
    "Nsimd.Props.CpuLogMem.formats_ok"
   ],
   "note": "CPU backend, all types"
  },
  {
   "property": "C70",
   "status": "proved",
   "theorems": [
    "Nsimd.Props.ArmMem.load_spec",
    "Nsimd.Props.ArmMem.loadF16_spec",
    "Nsimd.Props.ArmMem.store_spec",
    "Nsimd.Props.ArmMem.storeF16_spec",
    "Nsimd.Props.ArmMem.loadDeg_spec",
    "Nsimd.Props.ArmMem.loadDegF16_spec",
    "Nsimd.Props.ArmMem.storeDeg_spec",
    "Nsimd.Props.ArmMem.storeDegF16_spec"
   ],
   "note": "instructions by their documented semantics; alignment is not modelled"
  },
  {
   "property": "C71",
   "status": "proved",
   "theorems": [
    "Nsimd.Props.ArmMem.maskozLoad_spec",
    "Nsimd.Props.ArmMem.maskozLoadF16_spec",
    "Nsimd.Props.ArmMem.maskStore_spec",
    "Nsimd.Props.ArmMem.gather_spec",
    "Nsimd.Props.ArmMem.gatherF16_spec",
    "Nsimd.Props.ArmMem.maskozGather_spec",
    "Nsimd.Props.ArmMem.maskozGatherF16_spec",
    "Nsimd.Props.ArmMem.scatter_spec",
    "Nsimd.Props.ArmMem.maskScatter_spec",
    "Nsimd.Props.ArmMem.gatherLinear_spec",
    "Nsimd.Props.ArmMem.linearSve32_spec",
    "Nsimd.Props.ArmMem.linearSve64_spec",
    "Nsimd.Props.ArmMem.gatherLinearLoop_spec",
    "Nsimd.Props.ArmMem.scatterLinear_spec"
   ],
   "note": "the SVE scatter instruction is taken to write lanes in increasing order"
  },
  {
   "property": "C72",
   "status": "proved",
   "theorems": [
    "Nsimd.Props.ArmMem.zip_spec",
    "Nsimd.Props.ArmMem.zipF16_spec",
    "Nsimd.Props.ArmMem.zip64_spec",
    "Nsimd.Props.ArmMem.unzip_zip"
   ],
   "note": ""
  },
  {
   "property": "C73",
   "status": "proved",
   "theorems": [
    "Nsimd.Props.ArmLane.wrap_spec",
    "Nsimd.Props.ArmLane.scalar_agree",
    "Nsimd.Props.ArmLane.emulated_spec",
    "Nsimd.Props.ArmLane.abs64_spec",
    "Nsimd.Props.ArmLane.emulated_i64",
    "Nsimd.Props.ArmLane.divSve_spec",
    "Nsimd.Props.ArmLane.abs_spec",
    "Nsimd.Props.ArmLane.minmax_spec",
    "Nsimd.Props.ArmLane.saturate_spec",
    "Nsimd.Props.ArmLane.iota_spec",
    "Nsimd.Props.ArmLane.notb64_spec",
    "Nsimd.Props.ArmLane.bitwise_spec"
   ],
   "note": ""
  },
  {
   "property": "C74",
   "status": "proved",
   "theorems": [
    "Nsimd.Props.ArmLane.represents_inj",
    "Nsimd.Props.ArmLane.cmp_spec",
    "Nsimd.Props.ArmLane.cmp64_spec",
    "Nsimd.Props.ArmLane.cmpF16_spec",
    "Nsimd.Props.ArmLane.ne_spec",
    "Nsimd.Props.ArmLane.ne64_spec",
    "Nsimd.Props.ArmLane.lop_spec",
    "Nsimd.Props.ArmLane.lopF16_spec",
    "Nsimd.Props.ArmLane.lopSve_spec",
    "Nsimd.Props.ArmLane.set1l_spec",
    "Nsimd.Props.ArmLane.predicate_spec",
    "Nsimd.Props.ArmLane.ifElse_spec",
    "Nsimd.Props.ArmLane.ifElseF16_spec",
    "Nsimd.Props.ArmLane.ifElseF64_spec",
    "Nsimd.Props.ArmLane.ifElseSve_spec",
    "Nsimd.Props.ArmLane.mask_spec",
    "Nsimd.Props.ArmLane.toLogical64_spec",
    "Nsimd.Props.ArmLane.toLogical_toMask",
    "Nsimd.Props.ArmLane.reinterpretl_spec",
    "Nsimd.Props.ArmLane.logMem_spec",
    "Nsimd.Props.ArmLane.reverse_spec",
    "Nsimd.Props.ArmLane.reverse64_spec",
    "Nsimd.Props.ArmLane.reverseF16_spec"
   ],
   "note": ""
  },
  {
   "property": "C75",
   "status": "partial",
   "theorems": [
    "Nsimd.Props.Gpu.arith_spec",
    "Nsimd.Props.Gpu.cmp_spec",
    "Nsimd.Props.Gpu.shift_spec",
    "Nsimd.Props.Gpu.saturate_partial",
    "Nsimd.Props.Gpu.minmax_spec",
    "Nsimd.Props.Gpu.bits_spec",
    "Nsimd.Props.Gpu.oneapi_saturate_spec"
   ],
   "note": "false for subs on CUDA and ROCm when the subtrahend is the smallest value of a signed type (exact condition proved)"
  },
  {
   "property": "C76",
   "status": "partial",
   "theorems": [
    "Nsimd.Props.Gpu.cuda_fused_same",
    "Nsimd.Props.Gpu.cuda_fusedF_same",
    "Nsimd.Props.Gpu.cuda_fused_partial",
    "Nsimd.Props.Gpu.cuda_fused_counterexample",
    "Nsimd.Props.Gpu.oneapi_fused_spec",
    "Nsimd.Props.Gpu.cuda_minmaxF16",
    "Nsimd.Props.Gpu.cuda_minmaxF16Emul"
   ],
   "note": "false on CUDA and ROCm: all four fused operators compute a*b+c because the generator compares the name with the one string 'fnma, fnms', and f16 min and max return their first operand (proved); right on oneAPI"
  },
  {
   "property": "C77",
   "status": "partial",
   "theorems": [
    "Nsimd.Props.X86Rev.reverse_lanes",
    "Nsimd.Props.X86Rev.reverse_defined",
    "Nsimd.Props.X86Rev.reverse_reverse",
    "Nsimd.Props.X86Rev.reverseF16_halves",
    "Nsimd.Props.X86Rev.reverseF16_counterexample"
   ],
   "note": "false for f16 (the two registers are not exchanged) and the generated code of f64 on AVX-512 is not C; proved for all other types and extensions"
  },
  {
   "property": "C78",
   "status": "proved",
   "theorems": [
    "Nsimd.Props.X86Ops.eq_repr",
    "Nsimd.Props.X86Ops.gt_repr",
    "Nsimd.Props.X86Ops.lt_repr",
    "Nsimd.Props.X86Ops.ne_repr",
    "Nsimd.Props.X86Ops.ge_repr",
    "Nsimd.Props.X86Ops.leq_repr",
    "Nsimd.Props.X86Ops.notl_repr",
    "Nsimd.Props.X86Ops.logic_repr",
    "Nsimd.Props.X86Ops.set1l_repr",
    "Nsimd.Props.X86Ops.ifElse_lane",
    "Nsimd.Props.X86Ops.toMask_lane",
    "Nsimd.Props.X86Ops.toLogical_repr",
    "Nsimd.Props.X86Ops.toLogical_toMask",
    "Nsimd.Props.X86Ops.storel_loadl",
    "Nsimd.Props.X86Ops.all_any_spec",
    "Nsimd.Props.X86Ops.nbtrue_spec"
   ],
   "note": "integer types; float comparisons are single instructions"
  },
  {
   "property": "C79",
   "status": "partial",
   "theorems": [
    "Nsimd.Props.X86Ops.add_sub_neg_spec",
    "Nsimd.Props.X86Ops.mul_spec",
    "Nsimd.Props.X86Ops.fma_spec",
    "Nsimd.Props.X86Ops.shl_spec",
    "Nsimd.Props.X86Ops.shr_spec",
    "Nsimd.Props.X86Ops.shra_spec",
    "Nsimd.Props.X86Ops.max_min_spec",
    "Nsimd.Props.X86Ops.abs_spec",
    "Nsimd.Props.X86Ops.adds_spec",
    "Nsimd.Props.X86Ops.subs_partial",
    "Nsimd.Props.X86Ops.subs_counterexample"
   ],
   "note": "false for subs of i32 and i64 when the subtrahend is the smallest value (proved to be the only failures), all other operators proved; abs of the smallest value is 2^(w-1) read as unsigned; emulated signed products are undefined on overflow (exactly characterised)"
  },
  {
   "property": "C80",
   "status": "partial",
   "theorems": [
    "Nsimd.Props.X86Ops.agree_add_sub_neg",
    "Nsimd.Props.X86Ops.agree_mul",
    "Nsimd.Props.X86Ops.agree_fma",
    "Nsimd.Props.X86Ops.agree_shift",
    "Nsimd.Props.X86Ops.agree_min_max_adds",
    "Nsimd.Props.X86Ops.agree_logic",
    "Nsimd.Props.X86Ops.agree_toMask",
    "Nsimd.Props.X86Ops.agree_abs",
    "Nsimd.Props.X86Ops.agree_subs_partial",
    "Nsimd.Props.X86Ops.disagree_subs"
   ],
   "note": "false for subs of i8 and i16 with the smallest subtrahend: the scalar code wraps, the instruction saturates (proved for every such lane); fma: where both are defined"
  },
  {
   "property": "C81",
   "status": "partial",
   "theorems": [
    "Nsimd.Props.PackZip.zip_unzip_regs",
    "Nsimd.Props.PackZip.interleave_zip",
    "Nsimd.Props.PackZip.zip_unzip_partial",
    "Nsimd.Props.PackZip.zip_unzip_second",
    "Nsimd.Props.PackZip.zip_counterexample"
   ],
   "note": "the members are wrong for N > 1 because the template works register by register (proved); to_pack_interleave(zip(a, b)) is right for every N"
  },
  {
   "property": "C82",
   "status": "partial",
   "theorems": [
    "Nsimd.Props.PpcLane.wrap_spec",
    "Nsimd.Props.PpcLane.div_spec",
    "Nsimd.Props.PpcLane.div_value",
    "Nsimd.Props.PpcLane.abs_spec",
    "Nsimd.Props.PpcLane.minmax_spec",
    "Nsimd.Props.PpcLane.adds_spec",
    "Nsimd.Props.PpcLane.subs_partial",
    "Nsimd.Props.PpcLane.subs_counterexample",
    "Nsimd.Props.PpcLane.fma_spec",
    "Nsimd.Props.PpcLane.bitwise_spec",
    "Nsimd.Props.PpcLane.iota_spec",
    "Nsimd.Props.PpcLane.cvt_spec"
   ],
   "note": "false for subs of i64 with the smallest subtrahend, where the scalar operator is called (subs_partial is an equivalence); everything else proved"
  },
  {
   "property": "C83",
   "status": "proved",
   "theorems": [
    "Nsimd.Props.PpcLane.cmp_spec",
    "Nsimd.Props.PpcLane.cmpF_spec",
    "Nsimd.Props.PpcLane.cmpF16_spec",
    "Nsimd.Props.PpcLane.toLogical_toMask",
    "Nsimd.Props.PpcLane.reinterpretl_spec",
    "Nsimd.Props.PpcLane.logMem_spec",
    "Nsimd.Props.PpcLane.logMem64_spec"
   ],
   "note": ""
  },
  {
   "property": "C84",
   "status": "partial",
   "theorems": [
    "Nsimd.Props.ArmCvt.fcvtz_spec",
    "Nsimd.Props.ArmCvt.cvtFI_spec",
    "Nsimd.Props.ArmCvt.cvtFI_sat",
    "Nsimd.Props.ArmCvt.cvtF16I_spec",
    "Nsimd.Props.ArmCvt.ieee_exact",
    "Nsimd.Props.ArmCvt.upcvtIF_spec",
    "Nsimd.Props.ArmCvt.cvtIF16_spec",
    "Nsimd.Props.ArmCvt.upcvtIF16_spec",
    "Nsimd.Props.ArmCvt.upcvtFF_spec",
    "Nsimd.Props.ArmCvt.downcvtFF_spec",
    "Nsimd.Props.ArmCvt.upcvtFI_spec",
    "Nsimd.Props.ArmCvt.upcvtF16I_spec",
    "Nsimd.Props.ArmCvt.downcvtFI_spec",
    "Nsimd.Props.ArmCvt.downcvtF16I_spec",
    "Nsimd.Props.ArmCvt.downcvtIF_sve",
    "Nsimd.Props.ArmCvt.downcvtIF_f16",
    "Nsimd.Props.ArmCvt.downcvtIF16_spec",
    "Nsimd.Props.ArmCvt.downcvtIF_f32_partial",
    "Nsimd.Props.ArmCvt.downcvtIF_f32_counterexample",
    "Nsimd.Props.ArmCvt.reinterpret_roundtrip"
   ],
   "note": "false for downcvt of i64, u64 to f32 on NEON, which rounds twice: proved for at most 53 bits and on SVE, refuted otherwise for every rounding to nearest"
  },
  {
   "property": "C85",
   "status": "proved",
   "theorems": [
    "Nsimd.Props.PpcCvt.cvtIF_exact",
    "Nsimd.Props.PpcCvt.cvtI16F16_spec",
    "Nsimd.Props.PpcCvt.cvtU16F16_spec",
    "Nsimd.Props.PpcCvt.upcvt8F16_spec",
    "Nsimd.Props.PpcCvt.upcvt16F32_spec",
    "Nsimd.Props.PpcCvt.upcvtF32I_iff",
    "Nsimd.Props.PpcCvt.upcvtF32F64_spec",
    "Nsimd.Props.PpcCvt.upcvt32F64_spec",
    "Nsimd.Props.PpcCvt.downcvtF64I_iff",
    "Nsimd.Props.PpcCvt.downcvtF64F32_spec",
    "Nsimd.Props.PpcCvt.downcvtI64F32_spec",
    "Nsimd.Props.PpcCvt.cvtFI_spec",
    "Nsimd.Props.PpcCvt.cvtFI_sat",
    "Nsimd.Props.PpcCvt.cvtF16I_spec",
    "Nsimd.Props.PpcCvt.downcvtF32I_spec",
    "Nsimd.Props.PpcCvt.downcvtF32I_overflow",
    "Nsimd.Props.PpcCvt.upcvtF16I_spec",
    "Nsimd.Props.PpcCvt.downcvtF16I_spec",
    "Nsimd.Props.PpcCvt.downcvtI32F16_spec",
    "Nsimd.Props.PpcCvt.downcvt_upcvt_f16",
    "Nsimd.Props.PpcCvt.reinterpret_roundtrip"
   ],
   "note": "outside the domain of the conversion of C, downcvt to 8 and 16 bits drops the upper bits of the saturated 32-bit value"
  },
  {
   "property": "C86",
   "status": "proved",
   "theorems": [
    "Nsimd.Props.FixedSimd.add_lanes",
    "Nsimd.Props.FixedSimd.mul_lanes",
    "Nsimd.Props.FixedSimd.div_lanes",
    "Nsimd.Props.FixedSimd.fma_lanes",
    "Nsimd.Props.FixedSimd.rec_lanes",
    "Nsimd.Props.FixedSimd.exp_lanes",
    "Nsimd.Props.FixedSimd.exp_min_undefined",
    "Nsimd.Props.FixedSimd.sqrt_lanes",
    "Nsimd.Props.FixedSimd.add_value",
    "Nsimd.Props.FixedSimd.mul_value",
    "Nsimd.Props.FixedSimd.div_value",
    "Nsimd.Props.FixedSimd.abs_min_max_value",
    "Nsimd.Props.FixedSimd.cpu_sound",
    "Nsimd.Props.FixedSimd.x86_sound",
    "Nsimd.Props.FixedSimd.neon_sound",
    "Nsimd.Props.FixedSimd.sve_sound",
    "Nsimd.Props.FixedSimd.ppc_sound"
   ],
   "note": "Proved for every target that meets the record Sound, and Sound is proved for the models of all CPU targets. The smallest int exponent is undefined (exp_min_undefined). simd_exp does not compile as it stands (it includes floor.hpp, which has a typing error)."
  },
  {
   "property": "C87",
   "status": "partial",
   "theorems": [
    "Nsimd.Props.F16Arith.add16_rounded",
    "Nsimd.Props.F16Arith.sub16_rounded",
    "Nsimd.Props.F16Arith.mul16_rounded",
    "Nsimd.Props.F16Arith.div16_rounded",
    "Nsimd.Props.F16Arith.rec16_rounded",
    "Nsimd.Props.F16Arith.sqrt16_rounded",
    "Nsimd.Props.F16Arith.sqrt16c89_rounded",
    "Nsimd.Props.F16Arith.integral16_exact",
    "Nsimd.Props.F16Arith.neg16_exact",
    "Nsimd.Props.F16Arith.fma16_near_partial",
    "Nsimd.Props.F16Arith.fma16_not_rounded",
    "Nsimd.Props.F16Arith.cpu_rounded",
    "Nsimd.Props.F16Arith.cpu_two_operations_differ",
    "Nsimd.Props.F16Arith.exists_ieee"
   ],
   "note": "Holds for all operators but the multiply-adds: fma16_not_rounded gives operands on which every IEEE-754 fmaf leads to the wrong half; fma16_near_partial bounds the loss by one part in 2^23 of the result."
  },
  {
   "property": "C88",
   "status": "proved",
   "theorems": [
    "Nsimd.Props.FloatLane.lt_fl",
    "Nsimd.Props.FloatLane.eq_fl",
    "Nsimd.Props.FloatLane.cmp_fl",
    "Nsimd.Props.FloatLane.neg_fl",
    "Nsimd.Props.FloatLane.abs_fl",
    "Nsimd.Props.FloatLane.abs_sign",
    "Nsimd.Props.FloatLane.min_fl",
    "Nsimd.Props.FloatLane.max_fl",
    "Nsimd.Props.FloatLane.round_fl",
    "Nsimd.Props.FloatLane.trunc_fl",
    "Nsimd.Props.FloatLane.exists_ok",
    "Nsimd.Props.Ieee.sFma_rounded",
    "Nsimd.Props.Ieee.sFma_twice",
    "Nsimd.Props.Ieee.sRec_rounded",
    "Nsimd.Props.Ieee.arithOk",
    "Nsimd.Props.Ieee.ref_isIeee",
    "Nsimd.Props.Ieee.rq_nearest",
    "Nsimd.Props.Ieee.add_fl",
    "Nsimd.Props.Ieee.mul_fl",
    "Nsimd.Props.Ieee.div_fl",
    "Nsimd.Props.Ieee.fma_fl",
    "Nsimd.Props.Ieee.sqrt_fl"
   ],
   "note": "f32 and f64; the sign of a zero returned by trunc and round_to_even is not stated. f16 is C87."
  },
  {
   "property": "C89",
   "status": "proved",
   "theorems": [
    "Nsimd.Props.X86Float.arith_lane",
    "Nsimd.Props.X86Float.neg_lane",
    "Nsimd.Props.X86Float.abs_lane",
    "Nsimd.Props.X86Float.abs_scalar",
    "Nsimd.Props.X86Float.minmax_lane",
    "Nsimd.Props.X86Float.cmps_repr",
    "Nsimd.Props.X86Float.ifElse_lane",
    "Nsimd.Props.X86Float.fma_lane",
    "Nsimd.Props.X86Float.floor_lane",
    "Nsimd.Props.X86Float.round_lane",
    "Nsimd.Props.X86Float.trunc_lane",
    "Nsimd.Props.X86Float.rec11_lane",
    "Nsimd.Props.X86Float.f16_lane",
    "Nsimd.Props.X86Float.f16_ops",
    "Nsimd.Props.X86Float.fms_not_fused",
    "Nsimd.Props.X86Float.exInstr_ok"
   ],
   "note": "fma agrees up to the choice of a NaN; floor, ceil, trunc and round_to_even are compared by value: the sign of a zero they return is not stated. The rounded instructions are parameters."
  },
  {
   "property": "C90",
   "status": "proved",
   "theorems": [
    "Nsimd.Props.ArmFloat.flush_fl",
    "Nsimd.Props.ArmFloat.arith_lane",
    "Nsimd.Props.ArmFloat.div_lane",
    "Nsimd.Props.ArmFloat.neg_lane",
    "Nsimd.Props.ArmFloat.abs_lane",
    "Nsimd.Props.ArmFloat.minmax_lane",
    "Nsimd.Props.ArmFloat.minmax_fl",
    "Nsimd.Props.ArmFloat.cmp_lane",
    "Nsimd.Props.ArmFloat.cmp64_lane",
    "Nsimd.Props.ArmFloat.neon_cmp_fl",
    "Nsimd.Props.ArmFloat.neon_gt_differs",
    "Nsimd.Props.ArmFloat.fma_lane",
    "Nsimd.Props.ArmFloat.fma64_lane",
    "Nsimd.Props.ArmFloat.fma32_lane",
    "Nsimd.Props.ArmFloat.floor_lane",
    "Nsimd.Props.ArmFloat.trunc_round_lane",
    "Nsimd.Props.ArmFloat.f16_lane",
    "Nsimd.Props.ArmFloat.exNeon_ok",
    "Nsimd.Props.ArmFloat.neon_sub_differs",
    "Nsimd.Props.ArmFloat.neon_fms_not_fused"
   ],
   "note": "The instructions are parameters that follow the IEEE-754 reference of C88 (NeonOk on ARMv7); min and max follow the ARM manual. rec8, rsqrt8 and half precision instructions are not modelled. f16_lane is generic in the operator."
  },
  {
   "property": "C91",
   "status": "proved",
   "theorems": [
    "Nsimd.Props.PpcFloat.arith_lane",
    "Nsimd.Props.PpcFloat.neg_lane",
    "Nsimd.Props.PpcFloat.abs_lane",
    "Nsimd.Props.PpcFloat.minmax_vmx",
    "Nsimd.Props.PpcFloat.minmax_vsx",
    "Nsimd.Props.PpcFloat.cmp_lane",
    "Nsimd.Props.PpcFloat.fma_lane",
    "Nsimd.Props.PpcFloat.fnma_cancels",
    "Nsimd.Props.PpcFloat.emulated_lane",
    "Nsimd.Props.PpcFloat.floor_lane",
    "Nsimd.Props.PpcFloat.trunc_lane",
    "Nsimd.Props.PpcFloat.round_lane",
    "Nsimd.Props.PpcFloat.f16_lane"
   ],
   "note": "The instructions are parameters that follow the IEEE-754 reference of C88; min, max and the negated multiply-adds follow the Power ISA. The estimates vec_re and vec_rsqrte of rec8, rec11, rsqrt8 and rsqrt11 are parameters without a specification."
  },
  {
   "property": "C92",
   "status": "proved",
   "theorems": [
    "Nsimd.Props.X86Rei.reinterpret_f16c",
    "Nsimd.Props.X86Rei.reinterpret_f16c_sse",
    "Nsimd.Props.X86Rei.reinterpret_soft",
    "Nsimd.Props.X86Rei.reinterpret_back_iff",
    "Nsimd.Props.X86Rei.lToF16_spec",
    "Nsimd.Props.X86Rei.lToF16Avx_spec",
    "Nsimd.Props.X86Rei.lToF16_512_spec",
    "Nsimd.Props.X86Rei.lFromF16_spec",
    "Nsimd.Props.X86Rei.lFromF16_512_spec"
   ],
   "note": "Between other types the code returns its argument or a cast that keeps all bits. The loads and stores of the software path are C20-C21 and C65 operators, here lanes in order."
  },
  {
   "property": "C93",
   "status": "partial",
   "theorems": [
    "Nsimd.Props.FixedUlp.shift_defined",
    "Nsimd.Props.FixedUlp.shiftRight_rounded",
    "Nsimd.Props.FixedUlp.shiftLeft_exact",
    "Nsimd.Props.FixedUlp.bitwise_bits",
    "Nsimd.Props.FixedUlp.equalUlp_spec",
    "Nsimd.Props.FixedUlp.equalUlp_partial",
    "Nsimd.Props.FixedUlp.equalUlp_fraction",
    "Nsimd.Props.FixedUlp.equalUlp_wrap",
    "Nsimd.Props.FixedUlp.equalUlp_undefined"
   ],
   "note": "Shifts and bitwise operators are proved. The claim on equal_ulp is false: what it computes is equalUlp_spec, the failures are equalUlp_fraction (fractional bits are ignored), equalUlp_wrap and equalUlp_undefined."
  },
  {
   "property": "C94",
   "status": "partial",
   "theorems": [
    "Nsimd.Props.Fmod.isFmod_unique",
    "Nsimd.Props.Fmod.toward0_pred",
    "Nsimd.Props.Fmod.upper_significand",
    "Nsimd.Props.Fmod.xfmod_exact_partial",
    "Nsimd.Props.Fmod.xfmodf_exact_partial",
    "Nsimd.Props.Fmod.vfmod_exact_partial",
    "Nsimd.Props.Fmod.vfmodf_exact_partial",
    "Nsimd.Props.Fmod.fmod_simd_eq_scalar",
    "Nsimd.Props.Fmod.fmod_zero",
    "Nsimd.Props.Fmod.xfmod_quotient_overflows",
    "Nsimd.Props.Fmod.xfmodf_quotient_overflows",
    "Nsimd.Props.Fmod.scaling_overflows"
   ],
   "note": "Exact for quotients up to 2^996 (f64) and 2^128 (f32). The claim is false for larger ones: above 2^1025 and 2^129 the first quotient overflows, and so does the scaling of subnormal divisors when |x| is large. f64 quotients between 2^996 and 2^1025 and f32 quotients between 2^128 and 2^129 are open. Infinities, NaN operands and signs of zero are not modelled."
  },
  {
   "property": "C95",
   "status": "partial",
   "theorems": [
    "Nsimd.Props.Remainder.isRemainder_of_half",
    "Nsimd.Props.Remainder.isRemainder_unique",
    "Nsimd.Props.Remainder.xremainder_exact_partial",
    "Nsimd.Props.Remainder.xremainderf_exact_partial",
    "Nsimd.Props.Remainder.vremainder_exact_partial",
    "Nsimd.Props.Remainder.vremainderf_exact_partial",
    "Nsimd.Props.Remainder.remainder_simd_eq_scalar",
    "Nsimd.Props.Remainder.remainder_zero",
    "Nsimd.Props.Remainder.quotient_overflows"
   ],
   "note": "Exact for quotients up to 2^1006 (f64) and 2^128 (f32). The claim is false for larger ones: from 2^1025 and 2^129 on the first quotient overflows. f64 quotients between 2^1006 and 2^1025 and f32 quotients between 2^128 and 2^129 are open. Infinite and NaN operands and signs of zero are not modelled."
  },
  {
   "property": "C96",
   "status": "proved",
   "theorems": [
    "Nsimd.Props.MathCalls.rep_left",
    "Nsimd.Props.MathCalls.fmod_f16_exact",
    "Nsimd.Props.MathCalls.remainder_f16_exact",
    "Nsimd.Props.MathCalls.computes_exists",
    "Nsimd.Props.MathCalls.x86_ppc_f16_lanes",
    "Nsimd.Props.MathCalls.arm_f16_lanes",
    "Nsimd.Props.MathCalls.emulation_lanes"
   ],
   "note": "The f32 function on bit patterns is a parameter assumed to compute `xfmodf` / `xremainderf` (C94, C95) on values; `computes_exists` shows that the assumption can be met."
  },
  {
   "property": "C97",
   "status": "proved",
   "theorems": [
    "Nsimd.Props.Hypot.hypot35_finite",
    "Nsimd.Props.Hypot.hypot35_zero",
    "Nsimd.Props.Hypot.hypot35_comm",
    "Nsimd.Props.Hypot.hypot35_even",
    "Nsimd.Props.Hypot.hypot35_special",
    "Nsimd.Props.Hypot.exists_ulp"
   ],
   "note": "Division, multiplication, addition and square root are assumed correctly rounded; this excludes the f32 vectors of 32-bit NEON, whose division and square root are approximations."
  },
  {
   "property": "C98",
   "status": "partial",
   "theorems": [
    "Nsimd.Props.Exp.xexp_fma_within",
    "Nsimd.Props.Exp.xexp_within_partial",
    "Nsimd.Props.Exp.xexp_over",
    "Nsimd.Props.Exp.xexp_over_early",
    "Nsimd.Props.Exp.xexpf_within_partial"
   ],
   "note": "f64 with fused multiply-add: 1 ulp, as documented, for all arguments up to 709.7827111. f64 without it and f32: 1.17 ulps, missing is the step to 1 ulp. Above 709.7827111495574 the f64 code returns infinity although e^d is finite up to 709.7827128933840 (xexp_over_early), so the claim is false there."
  },
  {
   "property": "C99",
   "status": "proved",
   "theorems": [
    "Nsimd.Props.Exp.xexp2_within",
    "Nsimd.Props.Exp.xexp2f_within"
   ],
   "note": "The operations are assumed correctly rounded and not contracted; scalar code for |d| <= 2^27."
  },
  {
   "property": "C100",
   "status": "proved",
   "theorems": [
    "Nsimd.Props.Exp.xexp10_within",
    "Nsimd.Props.Exp.xexp10f_within"
   ],
   "note": "The operations are assumed correctly rounded and not contracted; scalar code for |d| <= 2^27."
  },
  {
   "property": "C101",
   "status": "partial",
   "theorems": [
    "Nsimd.Props.Exp.special_simd",
    "Nsimd.Props.Exp.special_scalar",
    "Nsimd.Props.Exp.xexp2_scalar_undefined"
   ],
   "note": "Proved for the SIMD code. False for the scalar code, which converts to int before it tests the argument (special_scalar, xexp2_scalar_undefined)."
  },
  {
   "property": "C102",
   "status": "partial",
   "theorems": [
    "Nsimd.Props.Cosh.xcosh35_within_partial",
    "Nsimd.Props.Cosh.xcoshf35_within_partial",
    "Nsimd.Props.Cosh.xcosh35_over",
    "Nsimd.Props.Cosh.xcoshf35_over",
    "Nsimd.Props.Cosh.special_simd",
    "Nsimd.Props.Cosh.xcosh35_710"
   ],
   "note": "Proved for |x| <= 709 (f64) and |x| <= 88 (f32). False above: the code returns infinity although cosh x is finite up to 710.47 and 89.41 (xcosh35_710)."
  },
  {
   "property": "C103",
   "status": "proved",
   "theorems": [
    "Nsimd.Props.Atan.xatan_within",
    "Nsimd.Props.Atan.xatanf_within",
    "Nsimd.Props.Atan.xatan_inf",
    "Nsimd.Props.Atan.xatanf_inf",
    "Nsimd.Props.Atan.halfPi_nearest",
    "Nsimd.Props.Atan.atan_nan"
   ],
   "note": "Not modelled: the sign of zero, and the reciprocal estimate that replaces the division on 32-bit ARM."
  },
  {
   "property": "C104",
   "status": "proved",
   "theorems": [
    "Nsimd.Props.Log.xlog_within",
    "Nsimd.Props.Log.xlogf_within",
    "Nsimd.Props.Log.log_special",
    "Nsimd.Props.Log.log_one_exact"
   ],
   "note": "Not modelled: the branches for AVX-512, which use vgetexp and vgetmant, and the reciprocal estimate that replaces the division on 32-bit ARM."
  },
  {
   "property": "C105",
   "status": "proved",
   "theorems": [
    "Nsimd.Props.Cbrt.xcbrt_within",
    "Nsimd.Props.Cbrt.xcbrtf_within",
    "Nsimd.Props.Cbrt.cbrt_zero",
    "Nsimd.Props.Cbrt.cbrt_tie"
   ],
   "note": "Not modelled: infinities and NaNs, and the branches for AVX-512, which use vgetexp."
  },
  {
   "property": "C106",
   "status": "proved",
   "theorems": [
    "Nsimd.Props.Asin.xasin_within",
    "Nsimd.Props.Asin.xasinf_within",
    "Nsimd.Props.Asin.asin_special"
   ],
   "note": "Not modelled: the sign of a zero result. The square root is assumed to be correctly rounded."
  },
  {
   "property": "C107",
   "status": "proved",
   "theorems": [
    "Nsimd.Props.Asin.xacos_within",
    "Nsimd.Props.Asin.xacosf_within",
    "Nsimd.Props.Asin.asin_special"
   ],
   "note": "Not modelled: the sign of a zero result. The square root is assumed to be correctly rounded."
  },
  {
   "property": "C108",
   "status": "proved",
   "theorems": [
    "Nsimd.Props.Atan2.xatan2_within",
    "Nsimd.Props.Atan2.xatan2f_within",
    "Nsimd.Props.Atan2.xatan2_inf",
    "Nsimd.Props.Atan2.xatan2f_inf",
    "Nsimd.Props.Atan2.atan2_nan"
   ],
   "note": "The rounding is to nearest and commutes with the sign, as rounding to even does."
  },
  {
   "property": "C109",
   "status": "partial",
   "theorems": [
    "Nsimd.Props.Sin.xsin_within_partial"
   ],
   "note": "Proved for f64 and arguments of absolute value below 15, where the code uses the reduction with PI_A2 and PI_B2. Missing: larger arguments, f32, infinities and NaN, the sign of zero."
  },
  {
   "property": "C110",
   "status": "partial",
   "theorems": [
    "Nsimd.Props.Sin.xcos_within_partial"
   ],
   "note": "Proved for f64 and arguments of absolute value below 15, where the code uses the reduction with PI_A2 and PI_B2. Missing: larger arguments, f32, infinities and NaN, the sign of zero."
  },
  {
   "property": "C111",
   "status": "proved",
   "theorems": [
    "Nsimd.Props.MathF16.exp_f16",
    "Nsimd.Props.MathF16.exp2_f16",
    "Nsimd.Props.MathF16.exp10_f16",
    "Nsimd.Props.MathF16.cosh_f16",
    "Nsimd.Props.MathF16.atan_f16",
    "Nsimd.Props.MathF16.log_f16",
    "Nsimd.Props.MathF16.cbrt_f16",
    "Nsimd.Props.MathF16.asin_f16",
    "Nsimd.Props.MathF16.acos_f16"
   ],
   "note": "The f32 functions are those of the models of C98-C107; Computes1 links them to the functions on bit patterns that the operators call, and each theorem also shows that such a function exists. asin and acos for arguments from -1 to 1, log for positive arguments. The SIMD back ends apply the same conversions to each lane (C96). The sign of a zero result is not covered."
  },
  {
   "property": "C112",
   "status": "proved",
   "theorems": [
    "Nsimd.Props.MathF16Two.atan2_f16",
    "Nsimd.Props.MathF16Two.hypot_f16"
   ],
   "note": "The f32 functions are those of the models of C97 and C108; each theorem also shows that a function on bit patterns that computes them exists. Infinite arguments of atan2_u35 are in C113."
  },
  {
   "property": "C113",
   "status": "proved",
   "theorems": [
    "Nsimd.Props.MathF16Special.log_f16_special",
    "Nsimd.Props.MathF16Special.asin_f16_special",
    "Nsimd.Props.MathF16Special.exp_f16_special",
    "Nsimd.Props.MathF16Special.cosh_f16_special",
    "Nsimd.Props.MathF16Special.atan_f16_special",
    "Nsimd.Props.MathF16Special.atan2_f16_special"
   ],
   "note": "The f32 functions are those of C98-C108; each theorem also shows that a function on bit patterns that computes them exists. exp and cosh only with the SIMD code of f32: the scalar code converts infinities and NaN to int, which is undefined (C98). The sign of a zero result of exp is not covered."
  },
  {
   "property": "C114",
   "status": "partial",
   "theorems": [
    "Nsimd.Props.Log2.xlog2f35_within_partial",
    "Nsimd.Props.Log2.xlog2f35_within_far",
    "Nsimd.Props.Log2.log2_special"
   ],
   "note": "The documented 3.5 ulps are proved for all arguments up to the square root of one half and from the square root of two; between them 4.5 ulps. Missing: 3.5 ulps between them, since the errors of the separate roundings are added as if they could be largest at the same argument. The special values are complete. The branches for AVX-512 and the f64 function are not modelled."
  },
  {
   "property": "C115",
   "status": "proved",
   "theorems": [
    "Nsimd.Props.Log2F16.log2_f16",
    "Nsimd.Props.Log2F16.log2_f16_special"
   ],
   "note": "The f32 function is that of C114; 4.5 ulps of f32 are enough. Each theorem also shows that a function on bit patterns that computes it exists."
  },
  {
   "property": "C116",
   "status": "proved",
   "theorems": [
    "Nsimd.Props.Log2Exact.xlog2f35_pow",
    "Nsimd.Props.Log2Exact.log2_f16_pow"
   ],
   "note": "The f32 function is that of C114, without its branches for AVX-512; f64 is not modelled."
  },
  {
   "property": "C117",
   "status": "proved",
   "theorems": [
    "Nsimd.Props.Exp2Exact.xexp2_int",
    "Nsimd.Props.Exp2Exact.xexp2f_int",
    "Nsimd.Props.Exp2Exact.exp2_f16_int",
    "Nsimd.Props.Exp2Exact.log2_exp2"
   ],
   "note": "The functions are those of C99 and C114."
  },
  {
   "property": "C118",
   "status": "proved",
   "theorems": [
    "Nsimd.Props.MathExact.exp_zero64",
    "Nsimd.Props.MathExact.exp_zero32",
    "Nsimd.Props.MathExact.log_one64",
    "Nsimd.Props.MathExact.log_one32"
   ],
   "note": "The functions are those of C98, C100, C102 and C104. The sign of zero is not modelled: the argument 0 is either zero and the result 0 of the logarithm has no sign."
  }
 ]
}
