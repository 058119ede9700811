{"id": "C01", "title": "f16 to f32 conversion is exact", "statement": "nsimd_u16_to_f32 maps every finite half-precision bit pattern (zeros, subnormals, normals, both signs) to the float that denotes exactly the same real number with the same sign, infinities to the infinity of the same sign, and NaNs to NaNs.", "quantifier": "for every 16-bit pattern", "why_tests_cant": "The repo test compares a handful of hand-written pairs; exactness for every pattern, including the subnormal renormalisation loop, is a universal statement.", "anchors": ["src/fp16.cpp:nsimd_u16_to_f32"]}
{"id": "C02", "title": "f32 to f16 conversion is round-to-nearest-even", "statement": "nsimd_f32_to_u16 returns, for every finite float, the half-precision number nearest to it in real value with ties going to the even mantissa (overflowing to infinity exactly when |a| >= 65520, underflowing to a signed zero exactly when |a| <= 2^-25), keeps the sign bit, maps infinities to infinities and every NaN to 0xffff.", "quantifier": "for every 32-bit float pattern", "why_tests_cant": "2^32 inputs with tie, carry-into-exponent, overflow and subnormal boundaries; tests use a short table.", "anchors": ["src/fp16.cpp:nsimd_f32_to_u16"]}
{"id": "C03", "title": "f16 -> f32 -> f16 round trip is the identity", "statement": "Converting any non-NaN half to float and back yields the identical bit pattern; every NaN comes back as the NaN 0xffff.", "quantifier": "for every 16-bit pattern", "why_tests_cant": "Needs both conversion functions on all inputs; the code base stores f16 vectors as f32 lanes, so every load/store relies on it.", "anchors": ["src/fp16.cpp:nsimd_u16_to_f32", "src/fp16.cpp:nsimd_f32_to_u16", "egg/platform_cpu.py:load", "egg/platform_cpu.py:store"]}
{"id": "C04", "title": "f32 to f16 conversion is monotone and sign symmetric", "statement": "If a <= b as reals then the half produced for a is <= the half produced for b; and flipping the sign bit of a non-NaN input flips exactly the sign bit of the output.", "quantifier": "for all pairs of non-NaN floats", "why_tests_cant": "A relation over pairs of 2^32 inputs.", "anchors": ["src/fp16.cpp:nsimd_f32_to_u16"]}
{"id": "C05", "title": "ufp returns the number of leading significant bits two floats share", "statement": "nsimd_ufp_* is symmetric, lies in [0, M+1], equals M+1 exactly for operands with the same exponent and mantissa fields, and for two finite normal floats of the same sign whose exponent fields differ by at most one it is M+1 minus the bit length of the distance |a-b| counted in units in the last place of the smaller one. It never depends on sign bits.", "quantifier": "for all pairs of bit patterns and each of the f16/f32/f64 instances", "why_tests_cant": "Quadratic in 2^16..2^64 inputs; the loop bound and the exponent-crossing case are only sampled by tests.", "anchors": ["src/ufp.cpp:nsimd::ufp", "src/ufp.cpp:nsimd_ufp_f16", "src/ufp.cpp:nsimd_ufp_f32", "src/ufp.cpp:nsimd_ufp_f64", "doc/markdown/how_tests_are_done.md"]}
{"id": "C06", "title": "Saturated addition clamps the exact sum (scalar and CPU emulation)", "statement": "adds on any integer type returns the mathematical sum clamped to the range of the type, and never executes an overflowing signed C addition.", "quantifier": "for all operand values, all widths, signed and unsigned", "why_tests_cant": "Overflow boundaries in four sign quadrants at each width; tests draw operands from small ranges.", "anchors": ["egg/scalar.py:adds", "egg/platform_cpu.py:scalar_impl"]}
{"id": "C07", "title": "Saturated subtraction clamps the exact difference", "statement": "subs on any integer type returns the mathematical difference clamped to the range of the type.", "quantifier": "for all operand values, all widths, signed and unsigned", "why_tests_cant": "The signed version is computed as adds(a, -b); the single value b = INT_MIN breaks the negation, which random tests never draw.", "anchors": ["egg/scalar.py:subs", "egg/platform_x86.py:subs"]}
{"id": "C08", "title": "x86 saturated addition without a native instruction clamps the exact sum", "statement": "The branch-free 32/64-bit adds used on SSE/AVX/AVX-512 (bit tricks plus a select) return, lane by lane, the mathematical sum clamped to the range of the type, for signed and unsigned lanes.", "quantifier": "for all lane values, 32- and 64-bit", "why_tests_cant": "The trick depends on sign-bit algebra over 2^64..2^128 operand pairs.", "anchors": ["egg/platform_x86.py:adds"]}
{"id": "C09", "title": "Shifts implement multiplication and floor division by powers of two", "statement": "For every shift count within the width, shl is multiplication by 2^s modulo 2^w, shr is floor division of the unsigned reading by 2^s, and shra is floor division of the signed reading by 2^s (so it rounds toward minus infinity on negatives); all counts in [0,w) are free of undefined behaviour except left-shifting a negative i32/i64.", "quantifier": "for all values, all shift counts, all integer types", "why_tests_cant": "Mask construction depends on value sign and count; count 0 and w-1 are boundary cases at every width.", "anchors": ["egg/scalar.py:shift"]}
{"id": "C10", "title": "x86 emulated 8-bit shifts equal the scalar shifts", "statement": "The 8-bit shl, shr and shra emulated through 16-bit (or 32-bit) register shifts on x86 give in each 8-bit lane the same result as the scalar operator, for every neighbouring lane value.", "quantifier": "for all register contents and all shift counts 0..7", "why_tests_cant": "Bits must not leak between neighbouring lanes; 2^16 contents times counts times lanes.", "anchors": ["egg/platform_x86.py:shl_shr", "egg/platform_x86.py:shra"]}
{"id": "C11", "title": "x86 emulated 8-bit multiplication equals the scalar multiplication", "statement": "The 8-bit mul built from 16-bit multiplies and masks returns in every 8-bit lane the product modulo 256 of the corresponding lanes.", "quantifier": "for all register contents", "why_tests_cant": "Carries from the odd lane into the even lane must never leak; 2^32 contents per 16-bit slot.", "anchors": ["egg/platform_x86.py:mul2"]}
{"id": "C12", "title": "x86 unsigned and 64-bit comparisons emulated with signed or narrower ones are exact", "statement": "Unsigned lt/gt computed by adding the sign bit and comparing signed, and 64-bit eq computed from 32-bit equality halves, agree with the mathematical comparison of the lanes.", "quantifier": "for all lane values", "why_tests_cant": "Boundary at the sign bit; pairs of 2^64 values.", "anchors": ["egg/platform_x86.py:cmp2_with_add", "egg/platform_x86.py:eq2", "egg/platform_x86.py:gt2"]}
{"id": "C13", "title": "Logical vectors only ever hold all-ones or all-zeros lanes", "statement": "Every operator that returns a logical vector (comparisons, loadl, set1l, to_logical, mask_for_loop_tail, andl/orl/xorl/notl/andnotl, reinterpretl) produces lanes that are canonical true or canonical false provided its logical inputs are; and the boolean operators act lane by lane as the boolean connectives.", "quantifier": "for every expression built from these operators, any depth, any lane count", "why_tests_cant": "An invariant over arbitrary operator sequences; all/any/nbtrue compare lanes with all-ones and silently miscount otherwise.", "anchors": ["egg/platform_cpu.py:cmp2", "egg/platform_cpu.py:lop2", "egg/platform_cpu.py:lnot1", "egg/platform_cpu.py:landnot2", "egg/platform_cpu.py:to_logical1", "egg/platform_cpu.py:set1l", "egg/platform_cpu.py:loadl"]}
{"id": "C14", "title": "all / any / nbtrue count true lanes", "statement": "On logical vectors, nbtrue is the number of true lanes, all is nonzero exactly when every lane is true, any exactly when some lane is true; hence all <-> nbtrue = len, any <-> nbtrue > 0, all(l) <-> not any(notl l).", "quantifier": "for every logical vector of every lane count", "why_tests_cant": "2^n masks per type; the reductions are unrolled text.", "anchors": ["egg/platform_cpu.py:all_any", "egg/platform_cpu.py:nbtrue1", "include/nsimd/nsimd.h:nsimd_popcnt32_", "include/nsimd/nsimd.h:nsimd_popcnt64_"]}
{"id": "C15", "title": "Population count helpers count set bits", "statement": "nsimd_popcnt32_ and nsimd_popcnt64_ return the number of one bits of their argument on every code path.", "quantifier": "for every 32/64-bit word", "why_tests_cant": "2^64 inputs for a multi-step bit trick.", "anchors": ["include/nsimd/nsimd.h:nsimd_popcnt32_", "include/nsimd/nsimd.h:nsimd_popcnt64_"]}
{"id": "C16", "title": "Load then store is the identity and touches only its own lanes", "statement": "storing a loaded vector at another address copies exactly len elements in order and changes no other address; storing then loading returns the vector.", "quantifier": "for every memory content, address, lane count", "why_tests_cant": "Frame conditions quantify over all addresses and contents.", "anchors": ["egg/platform_cpu.py:load", "egg/platform_cpu.py:store"]}
{"id": "C17", "title": "Masked loads and stores never touch inactive lanes", "statement": "maskz_load/masko_load read only addresses of active lanes (they succeed even if the addresses of inactive lanes are unmapped), return memory in active lanes and zero / the given vector elsewhere; mask_store writes exactly the active lanes and leaves every other address unchanged.", "quantifier": "for every mask, memory, address, lane count", "why_tests_cant": "Reading unmapped memory is undefined behaviour that a passing test cannot rule out.", "anchors": ["egg/platform_cpu.py:maskoz_load", "egg/platform_cpu.py:mask_store", "egg/platform_x86.py:maskoz_load", "egg/platform_x86.py:mask_store"]}
{"id": "C18", "title": "A strip-mined loop with mask_for_loop_tail processes each element exactly once", "statement": "The documented pattern `for (i = 0; i < n; i += len) { m = mask_for_loop_tail(i, n); mask_store(m, dst+i, f(maskz_load(m, src+i))) }` writes f(src[k]) to dst[k] for every 0 <= k < n, reads and writes no address outside [0,n), and terminates, for every n whose rounding up to a multiple of len is representable.", "quantifier": "for every n, every lane count, every memory", "why_tests_cant": "Every array length and every tail size; out-of-bounds accesses are invisible to tests.", "anchors": ["egg/platform_cpu.py:mask_for_loop_tail", "egg/platform_x86.py:mask_for_loop_tail"]}
{"id": "C19", "title": "load2/load3/load4 and store2/store3/store4 transpose AoS and SoA (CPU emulation)", "statement": "loadN puts element N*i+j of memory in lane i of vector j, storeN is its inverse, they touch exactly N*len elements, and loadN after storeN (and storeN after loadN) is the identity.", "quantifier": "for every memory content, address, lane count, degree", "why_tests_cant": "Index arithmetic over all lanes and all contents.", "anchors": ["egg/platform_cpu.py:load_deg234", "egg/platform_cpu.py:store_deg234"]}
{"id": "C20", "title": "x86 load2/load3/load4 return structure members in memory order", "statement": "On SSE2/SSE4.2/AVX/AVX2/AVX-512, lane i of vector j of loadN(ptr) is ptr[N*i+j], for every element type, as documented (`RRRR`/`IIII`) and as on the CPU back end.", "quantifier": "for every element value, every type width, every ISA", "why_tests_cant": "The shuffles are parametric in the data: the claim is about 16 to 256 lanes of arbitrary values; the repo's test only checks store(load(x)) = x, which also holds for permuted lanes.", "anchors": ["egg/x86_load_store_deg234.py:load2_sse", "egg/x86_load_store_deg234.py:load2_avx", "egg/x86_load_store_deg234.py:load4_sse", "egg/x86_load_store_deg234.py:load4_avx", "egg/x86_load_store_deg234.py:load3_sse", "doc/markdown/pack.md"]}
{"id": "C21", "title": "x86 storeN undoes loadN", "statement": "For each x86 ISA and type, storeN(ptr, loadN(ptr)) writes back exactly the same memory, and all members of one structure sit in the same lane index of the N vectors.", "quantifier": "for every element value, every type width, every ISA", "why_tests_cant": "Parametric in all element values; tests sample values modulo 10.", "anchors": ["egg/x86_load_store_deg234.py:store2", "egg/x86_load_store_deg234.py:store4_sse", "egg/x86_load_store_deg234.py:store3_sse", "egg/x86_load_store_deg234.py:store4_avx"]}
{"id": "C22", "title": "Gather and scatter address exactly base + offset", "statement": "gather returns memory at base+offset[i] in lane i; scatter writes lane i at base+offset[i] with the highest lane winning on duplicates and nothing else changed; gather after scatter with pairwise distinct offsets returns the vector; the linear variants use offsets i*step; masked variants skip inactive lanes.", "quantifier": "for every base, offsets, memory, lane count", "why_tests_cant": "Aliasing between offsets and untouched addresses needs universal quantification.", "anchors": ["egg/platform_cpu.py:gather", "egg/platform_cpu.py:scatter", "egg/platform_cpu.py:gather_linear", "egg/platform_cpu.py:scatter_linear", "egg/platform_cpu.py:maskoz_gather", "egg/platform_cpu.py:mask_scatter"]}
{"id": "C23", "title": "zip and unzip are mutually inverse", "statement": "unzip(zip(a,b)) = (a,b) and zip(unzip(a,b)) = (a,b); zip interleaves: concatenated output lane 2i is a[i] and lane 2i+1 is b[i].", "quantifier": "for all vectors of every even lane count", "why_tests_cant": "Parametric in element values and lane counts.", "anchors": ["egg/platform_cpu.py:zip_half", "egg/platform_cpu.py:unzip_half", "egg/platform_cpu.py:zip", "egg/platform_cpu.py:unzip"]}
{"id": "C24", "title": "Widening then narrowing conversion is the identity and keeps lane order", "statement": "upcvt of an integer vector gives, in the concatenation of its two outputs, the value-preserving extension of each lane in order; downcvt of that pair is the original vector; downcvt keeps the low half of each lane.", "quantifier": "for all integer vectors, every lane count and width", "why_tests_cant": "Sign extension over all lane values.", "anchors": ["egg/platform_cpu.py:upcvt1", "egg/platform_cpu.py:downcvt2", "egg/platform_x86.py:upcvt1", "egg/platform_x86.py:downcvt1"]}
{"id": "C25", "title": "Bitwise operators and reinterpretation preserve bits", "statement": "reinterpret between types of one size and back is the identity, and orb/andb/xorb/notb/andnotb act on the in-memory bit pattern of each element for every type including f16.", "quantifier": "for all vectors, all same-size type pairs", "why_tests_cant": "NaN payloads and the widened f16 representation only misbehave on particular patterns.", "anchors": ["egg/scalar.py:opbit", "egg/scalar.py:reinterpret", "egg/platform_cpu.py:reinterpret1"]}
{"id": "C26", "title": "to_mask and to_logical are inverse and if_else1 selects lanes", "statement": "to_logical(to_mask l) = l for logical vectors; to_mask gives all-ones/all-zeros lanes; if_else1(m,a,b) is a in true lanes and b in false lanes, equal to the bitwise blend (a and mask) or (b andnot mask).", "quantifier": "for all masks, vectors, lane counts", "why_tests_cant": "All masks times all lane contents.", "anchors": ["egg/platform_cpu.py:to_mask1", "egg/platform_cpu.py:to_logical1", "egg/platform_cpu.py:if_else1", "egg/platform_x86.py:if_else1"]}
{"id": "C27", "title": "Unrolled packs behave as one long vector", "statement": "For pack<T,N> every lane-wise operator, load, store, loadN/storeN, if_else, all/any/nbtrue/addv acts on the concatenation of its N registers: load reads N*len consecutive elements in order, store writes them, reductions cover all of them.", "quantifier": "for every unroll factor N, lane count, memory", "why_tests_cant": "Template recursion over N; tests instantiate N = 1, 2, 3 only.", "anchors": ["egg/gen_adv_cxx_api.py:get_cxx_advanced_generic", "include/nsimd/cxx_adv_api.hpp:all", "include/nsimd/cxx_adv_api.hpp:any", "include/nsimd/cxx_adv_api.hpp:nbtrue", "include/nsimd/cxx_adv_api.hpp:len"]}
{"id": "C28", "title": "Position-dependent operators on unrolled packs follow the global lane index", "statement": "On pack<T,N>, gather/scatter address base+offset[k] for each global lane k, gather_linear/scatter_linear use k*step, iota yields k, and mask_for_loop_tail(i,n) marks global lane k exactly when i+k < n.", "quantifier": "for every unroll factor N, lane count, offsets, memory", "why_tests_cant": "Wrong only for N >= 2, which tests of these operators do not instantiate.", "anchors": ["egg/gen_adv_cxx_api.py:get_cxx_advanced_generic", "egg/operators.py:Gather", "egg/operators.py:Iota", "egg/operators.py:MaskForLoopTail"]}
{"id": "C29", "title": "to_pack concatenates and to_pack_interleave interleaves registers", "statement": "to_pack(packxK<T,N>) is the concatenation of the K member packs, to_pack_interleave lists register r of each member in turn; both contain every register exactly once.", "quantifier": "for every K in 1..4, every unroll factor N, all registers", "why_tests_cant": "Recursive template metaprogram over N; tests fix N = 3.", "anchors": ["include/nsimd/cxx_adv_api.hpp:to_pack", "include/nsimd/cxx_adv_api.hpp:to_pack_recurs_helper", "include/nsimd/cxx_adv_api.hpp:to_pack_interleave"]}
{"id": "C30", "title": "tet1d assignment evaluates the expression at every index", "statement": "out(dst) = expr stores at each 0 <= i < n the value of the expression tree at i computed with scalar operators, for n any expression size, writes nothing else, and reads only indices < n; inputs may alias the destination exactly.", "quantifier": "for every expression tree, size, lane count, unroll, memory", "why_tests_cant": "Expression depth, size and the vector/remainder split are unbounded.", "anchors": ["include/nsimd/modules/tet1d.hpp:cpu_kernel_component_wise", "egg/modules/tet1d/hatch.py:gen_functions"]}
{"id": "C31", "title": "tet1d masked assignment writes exactly the selected elements", "statement": "When mask and expression are defined at every index 0 <= i < n, out(dst)(mask) = expr writes the expression value at indices where the mask expression is true and leaves every other element unchanged.", "quantifier": "for every mask/expression tree, size, lane count, memory", "why_tests_cant": "Same as above plus frame condition.", "anchors": ["include/nsimd/modules/tet1d.hpp:cpu_kernel_component_wise_mask"]}
{"id": "C32", "title": "tet1d sizes and subranges follow Python indexing", "statement": "compute_size accepts exactly pairs where both sizes agree or one is a scalar, and returns the common size; in(i0,i1) selects elements i0..i1 inclusive with negative indices counted from the end, and every element of the result lies inside the parent.", "quantifier": "for all sizes and index pairs", "why_tests_cant": "All integers, including negative wrap-around boundaries.", "anchors": ["include/nsimd/modules/tet1d.hpp:compute_size", "include/nsimd/modules/tet1d.hpp:node::operator()"]}
{"id": "C33", "title": "SPMD kernel launch visits each index exactly once", "statement": "spmd_launch_kernel_1d on CPU runs the kernel on consecutive disjoint blocks that partition [0,n): full vectors first, then single scalar indices, for every n such that n + len does not overflow nsimd_nat.", "quantifier": "for every n and vector length", "why_tests_cant": "All lengths; tests use fixed sizes.", "anchors": ["include/nsimd/modules/spmd.hpp:spmd_launch_kernel_1d"]}
{"id": "C34", "title": "SPMD masked control flow computes what each lane would compute alone", "statement": "For every kernel built from k_set, k_store, k_if/k_elseif/k_else, k_while, k_break, k_continue and k_return, running it with SIMD masks leaves each lane's variables and memory as if that lane had executed the C++ control flow alone, and lanes that are inactive are unchanged.", "quantifier": "for every program (any nesting and loop counts), every number of lanes, every initial state", "why_tests_cant": "Programs and execution histories are unbounded; no test in the repo uses k_break, k_continue or k_return.", "anchors": ["include/nsimd/modules/spmd.hpp:k_while", "include/nsimd/modules/spmd.hpp:k_if", "include/nsimd/modules/spmd.hpp:k_break", "include/nsimd/modules/spmd.hpp:k_continue", "include/nsimd/modules/spmd.hpp:k_return", "include/nsimd/modules/spmd.hpp:k_set_"]}
{"id": "C35", "title": "SPMD masked loops terminate when every lane terminates", "statement": "If each lane, executed alone, finishes a k_while loop, then the masked loop finishes.", "quantifier": "for every program, number of lanes, initial state", "why_tests_cant": "Liveness over unbounded executions.", "anchors": ["include/nsimd/modules/spmd.hpp:k_while", "include/nsimd/modules/spmd.hpp:any"]}
{"id": "C36", "title": "mulhilo computes the exact double-width product", "statement": "The low and high words returned by mulhilo32/mulhilo64 (both the widening and the four-partial-products versions) satisfy high*2^w + low = a*b.", "quantifier": "for all operand pairs and both word sizes", "why_tests_cant": "2^128 operand pairs with carry chains.", "anchors": ["egg/modules/random/hatch.py:Philox.mullohi"]}
{"id": "C37", "title": "Philox is a bijection of the counter for every key and matches the reference", "statement": "For each word size, word count and number of rounds, two different counters with the same key give different outputs, and the generated unrolled code equals the Branson/Random123 reference implementation.", "quantifier": "for every key, counter, number of rounds", "why_tests_cant": "2^64..2^256 counters; the repo compares along one orbit of 100000 steps.", "anchors": ["egg/modules/random/hatch.py:Philox.gen_func", "tests/modules/random/reference.hpp"]}
{"id": "C38", "title": "Threefry is a bijection of the counter for every key", "statement": "For each word size, word count and number of rounds, the counter-to-output map is injective and onto, and key injection happens after every fourth round with the rotating key schedule.", "quantifier": "for every key, counter, number of rounds", "why_tests_cant": "2^64..2^256 counters.", "anchors": ["egg/modules/random/hatch.py:ThreeFry.gen_body"]}
{"id": "C39", "title": "Aligned allocation sizes and C++ allocator contract", "statement": "allocate(n) either fails or returns at least n*sizeof(T) bytes at the advertised alignment; it never returns a shorter block because of arithmetic overflow.", "quantifier": "for every n representable in the allocator's size type", "why_tests_cant": "Overflow happens only for huge n that tests cannot allocate.", "anchors": ["src/memory.cpp:nsimd_aligned_alloc", "include/nsimd/nsimd.h:nsimd::allocator", "include/nsimd/nsimd.h:aligned_alloc_for"]}
{"id": "C40", "title": "GPU launch parameters cover all items exactly once", "statement": "With the grid size returned by nsimd_kernel_param, the guard `i < n` makes each index in [0,n) handled by exactly one thread, for every n and block size, on CUDA/ROCm (number of blocks) and oneAPI (number of threads).", "quantifier": "for every n >= 0 and block size > 0", "why_tests_cant": "All sizes.", "anchors": ["src/gpu.cpp:nsimd_kernel_param", "include/nsimd/modules/memory_management.hpp:nsimd_fill_dev_mem_func", "include/nsimd/modules/spmd.hpp:spmd_launch_kernel_1d"]}
{"id": "C41", "title": "pair_malloc/pair_calloc give host and device blocks able to hold sz elements", "statement": "After a successful pair_malloc<T>(sz)/pair_calloc<T>(sz), both the host and device block hold sz elements of T, so copy_to_device and copy_to_host stay in bounds and transfer all sz elements; on failure both pointers are null and nothing leaks.", "quantifier": "for every sz, element size and allocation failure pattern", "why_tests_cant": "Failure schedules and all sizes; the CPU test configuration never exercises the GPU branch.", "anchors": ["include/nsimd/modules/memory_management.hpp:pair_malloc", "include/nsimd/modules/memory_management.hpp:pair_calloc", "include/nsimd/modules/memory_management.hpp:copy_to_host", "include/nsimd/modules/memory_management.hpp:copy_to_device"]}
{"id": "C42", "title": "isnan, isinf and isnormal classify floats by their IEEE-754 class", "statement": "nsimd_isnan_*, nsimd_isinf_* and nsimd_isnormal_* return nonzero exactly for NaNs, infinities and normal numbers respectively.", "quantifier": "for every bit pattern of f16, f32, f64", "why_tests_cant": "All bit patterns.", "anchors": ["include/nsimd/nsimd.h:nsimd_isnan_f16", "include/nsimd/nsimd.h:nsimd_isinf_f16", "include/nsimd/nsimd.h:nsimd_isnormal_f16"]}
{"id": "C43", "title": "round_to_even, trunc, floor, ceil give the mathematically defined integer", "statement": "round_to_even returns the integer nearest to its argument with ties to even; trunc rounds toward zero; all of them return the argument itself for integers.", "quantifier": "for every real argument", "why_tests_cant": "Tie and sign cases over the whole real line.", "anchors": ["egg/scalar.py:round_to_even", "egg/scalar.py:get_impl"]}
{"id": "C44", "title": "min, max, abs, neg and comparisons satisfy their order laws", "statement": "For integer types min/max return the smaller/larger operand, abs returns the magnitude (and is defined) for every value but INT_MIN, and lt/le/gt/ge/eq/ne are the mathematical comparisons and consistent with each other.", "quantifier": "for all operand values and widths", "why_tests_cant": "All values, including INT_MIN.", "anchors": ["egg/scalar.py:get_impl", "egg/platform_cpu.py:cmp2"]}
{"id": "C45", "title": "Fixed-point scalar arithmetic is exact up to its documented rounding", "statement": "add and sub of fp_t values add/subtract the represented values exactly (when in range), mul returns the product rounded down to a multiple of 2^-rt, div the quotient truncated, and conversions to and from float are inverse on representable values.", "quantifier": "for all in-range operands and all parameters lf, rt", "why_tests_cant": "All operands and template parameters.", "anchors": ["include/nsimd/modules/fixed_point/fixed.hpp:fp_t", "include/nsimd/modules/fixed_point/function/add.hpp:add", "include/nsimd/modules/fixed_point/function/sub.hpp:sub", "include/nsimd/modules/fixed_point/function/mul.hpp:mul", "include/nsimd/modules/fixed_point/function/div.hpp:div"]}
{"id": "C46", "title": "Fixed-point comparisons and floor/ceil follow the represented value", "statement": "eq/lt/le/gt/ge compare the represented numbers, floor/ceil/trunc/round return the represented integer part.", "quantifier": "for all operands and all parameters lf, rt", "why_tests_cant": "Masks derived from template parameters are wrong only for some parameter combinations.", "anchors": ["include/nsimd/modules/fixed_point/function/eq.hpp:operator==", "include/nsimd/modules/fixed_point/function/less.hpp:lt", "include/nsimd/modules/fixed_point/function/greater.hpp:gt", "include/nsimd/modules/fixed_point/function/floor.hpp:floor", "include/nsimd/modules/fixed_point/function/ceil.hpp:ceil"]}
{"id": "C47", "title": "CPU scalar operators and vector operators agree lane by lane", "statement": "For each integer operator, the CPU-emulated vector operator applied to vectors equals the scalar operator applied to each lane, so extracting lane i commutes with every operator expression.", "quantifier": "for every expression over the operators, any depth, lane count, lane", "why_tests_cant": "Universally quantified over expressions and lanes.", "anchors": ["egg/platform_cpu.py:op2", "egg/platform_cpu.py:scalar_impl", "egg/platform_cpu.py:func_body"]}
{"id": "C48", "title": "Integer arithmetic operators wrap modulo 2^w or are undefined exactly on signed overflow", "statement": "add/sub/mul/neg/fma on 8- and 16-bit lanes and on unsigned lanes return the result modulo 2^w; on i32/i64 they return the exact result whenever it is representable and are undefined behaviour otherwise; the only undefined small case is u16 multiplication with product >= 2^31.", "quantifier": "for all operands and integer types", "why_tests_cant": "C integer promotion makes definedness depend on operand values.", "anchors": ["egg/scalar.py:opnum", "egg/platform_cpu.py:op2"]}
{"id": "C49", "title": "x86 emulated abs, min and max are exact on every lane", "statement": "Where x86 has no instruction, the emulated abs (shift/xor/sub, logical or blend forms) returns the magnitude modulo 2^w and the emulated min/max (compare then select) return the smaller/larger operand, for signed and unsigned lanes.", "quantifier": "for all lane widths and all operand bit patterns", "why_tests_cant": "All 2^(2w) operand pairs; the wrong ones of a broken trick are at the sign boundary.", "anchors": ["egg/platform_x86.py:abs1", "egg/platform_x86.py:minmax"]}
{"id": "C50", "title": "The tutorial's SIMD uppercase agrees with its scalar uppercase", "statement": "For every input string and length, uppercase_simd of examples/tutorial.cpp writes exactly what uppercase_scalar writes: letters a-z are mapped to A-Z, every other byte is copied, nothing outside dst[0..n) is written, and nothing outside src[0..n) is read.", "quantifier": "for every byte string, every length n, every vector length", "why_tests_cant": "Unbounded lengths and all byte values, including the loop tail remainders.", "anchors": ["examples/tutorial.cpp:uppercase_simd", "examples/tutorial.cpp:uppercase_scalar"]}
{"id": "C51", "title": "AVX-512 masks survive a store/load of logicals", "statement": "On AVX-512, storel writes 1 for set mask bits and 0 for the others, loadl sets exactly the bits of the nonzero lanes, and loadl after storel gives the mask back, for every mask.", "quantifier": "for all masks and all lane counts", "why_tests_cant": "2^64 masks for 8-bit lanes.", "anchors": ["egg/platform_x86.py:loadl", "egg/platform_x86.py:storel"]}
{"id": "C52", "title": "AVX-512 KNL comparisons of 8- and 16-bit lanes set exactly the right mask bits", "statement": "On avx512_knl, which has no 8/16-bit mask comparison, the comparison computed on 256-bit halves and widened to 32-bit lanes yields a mask whose bit i is the comparison result of lane i.", "quantifier": "for all lane contents", "why_tests_cant": "Bit order of the merged half masks depends on lane positions.", "anchors": ["egg/platform_x86.py:split_cmp2"]}
{"id": "C53", "title": "POWER load2/3/4 and store2/3/4 deinterleave and interleave every element type", "statement": "On VMX and VSX, loadN of N*len consecutive elements returns N vectors with lane l of vector k holding element N*l+k, storeN writes them back in that order and nothing else, and storeN after loadN restores memory, for all element types including the emulated 64-bit and f16 ones.", "quantifier": "for all memory contents, N in 2..4, element types", "why_tests_cant": "Each byte of each register follows its own path through merge and permute networks; big tables of permutation constants.", "anchors": ["egg/platform_ppc.py:load1234", "egg/platform_ppc.py:store1234"]}
{"id": "C54", "title": "POWER zip, unzip and reverse move exactly the right lanes", "statement": "ziplo/ziphi interleave the low/high halves of the operands, unziplo/unziphi keep the even/odd lanes, unzip undoes zip, reverse reverses the lane order, for every element type including f16.", "quantifier": "for all register contents and lanes", "why_tests_cant": "Permutation tables are generated; an error moves single bytes.", "anchors": ["egg/platform_ppc.py:zip", "egg/platform_ppc.py:unzip", "egg/platform_ppc.py:reverse1"]}
{"id": "C55", "title": "Vector loop-tail masks of x86, ARM and POWER enable exactly the remaining elements", "statement": "mask_for_loop_tail(i, N) of the hardware back ends enables lane k exactly when i + k < N, for every integer lane type and register width, whenever N - i does not overflow.", "quantifier": "for all i, N, lane types and register widths up to 2048 bits", "why_tests_cant": "Lane numbers are compared in the lane type; the failing width (i8 on SVE registers of more than 1024 bits) exists on no common machine.", "anchors": ["egg/platform_x86.py:mask_for_loop_tail", "egg/platform_arm.py:mask_for_loop_tail", "egg/platform_ppc.py:mask_for_loop_tail"]}
{"id": "C56", "title": "all, any, nbtrue and the logical operators on ARM and POWER", "statement": "On NEON, AArch64, SVE, VMX and VSX, all/any/nbtrue of a logical are the conjunction, disjunction and number of its true lanes, and logical operators, set1l, to_logical and if_else1 on POWER keep logicals all-ones/zero and compute the Boolean operation lane by lane.", "quantifier": "for all logicals, lane widths and lane counts", "why_tests_cant": "2^lanes logicals; the reductions go through narrower arithmetic that could wrap.", "anchors": ["egg/platform_arm.py:allany1", "egg/platform_arm.py:nbtrue1", "egg/platform_ppc.py:allany1", "egg/platform_ppc.py:nbtrue1", "egg/platform_ppc.py:logical_op2"]}
{"id": "C57", "title": "Shifts on ARM and POWER agree with the scalar operator", "statement": "For counts below the lane width, shl, shr and shra on NEON, SVE and POWER give the same bits as the scalar operators: logical shifts, and arithmetic right shift of signed, logical of unsigned types for shra.", "quantifier": "for all integer types, lane values and counts below the width", "why_tests_cant": "Negated counts travel through signed bytes; all value/count combinations.", "anchors": ["egg/platform_arm.py:shl_shr", "egg/platform_arm.py:shra", "egg/platform_ppc.py:shift2"]}
{"id": "C58", "title": "Integer fma, fms, fnma and fnms on ARM and POWER", "statement": "fma, fms, fnma, fnms of integer lanes return a*b+c, a*b-c, -(a*b)+c and -(a*b)-c modulo 2^w on ARM and POWER although the code permutes operands and negates intermediate results.", "quantifier": "for all lane values and widths", "why_tests_cant": "Algebraic identity over all 2^(3w) operands.", "anchors": ["egg/platform_arm.py:fmafnma3", "egg/platform_arm.py:fmsfnms3", "egg/platform_ppc.py:fma"]}
{"id": "C59", "title": "Integer up and down conversions on ARM and POWER keep lane order and values", "statement": "upcvt returns the lanes of its argument in order, the low half first, each equal to the C conversion of the lane to the destination type; downcvt returns the lanes of both arguments in order, each reduced modulo 2^w.", "quantifier": "for all lane values, source and destination integer types", "why_tests_cant": "Sign extension followed by masking, or reinterpretation followed by selection of even lanes: wrong only for particular sign patterns and lanes.", "anchors": ["egg/platform_arm.py:upcvt1", "egg/platform_arm.py:downcvt1", "egg/platform_ppc.py:upcvt1", "egg/platform_ppc.py:downcvt1"]}
{"id": "C60", "title": "Masked and indexed memory operators on POWER touch exactly the addressed elements", "statement": "On VMX and VSX, masked loads read memory only where the mask is true and take the other lanes from the given vector, masked stores write only where the mask is true, gather and gather_linear read lane i at its own offset, scatter and scatter_linear write lane i at its own offset with the highest lane winning.", "quantifier": "for all memories, masks, offsets and lane counts", "why_tests_cant": "Out-of-bounds accesses depend on masks and offsets; all combinations.", "anchors": ["egg/platform_ppc.py:maskoz_load", "egg/platform_ppc.py:mask_store", "egg/platform_ppc.py:gather", "egg/platform_ppc.py:gather_linear", "egg/platform_ppc.py:scatter", "egg/platform_ppc.py:scatter_linear"]}
{"id": "C61", "title": "addv adds every lane exactly once", "statement": "addv evaluates a bracketed sum in which every lane of the register occurs exactly once, on CPU, SSE, AVX, AVX-512, NEON, AArch64, SVE, VMX and VSX. Hence integer lanes sum modulo 2^w, and with round-to-nearest additions of precision p that do not overflow the result differs from the true sum by at most ((1+2^-p)^d - 1) times the sum of the magnitudes, d being the depth of the bracketing.", "quantifier": "for all lane values, additions and (SVE) power-of-two lane counts", "why_tests_cant": "Shuffles that lose or repeat a lane are visible only with inputs that differ lane by lane; rounding bounds range over all floating-point vectors.", "anchors": ["egg/platform_x86.py:addv", "egg/platform_arm.py:addv", "egg/platform_cpu.py:addv", "egg/platform_ppc.py:addv"]}
{"id": "C62", "title": "Double-double sums are error-free or bounded", "statement": "The SLEEF sum ddadd2 of two floating-point numbers returns a pair whose sum is exactly the sum of the operands, whose high part is the rounded sum; the quick forms (ddadd, ddsub, ddnormalize) do the same when the first operand is not smaller in magnitude. Sums with pairs return the rounded sum of the high parts and a low part within a bounded number of roundings of the exact remainder: two-pair sums have an error of at most 2^-2p of the high sum plus 2^(1-p) of the low sum. The same holds for the f32 versions in df.h.", "quantifier": "for all operands, precisions p, exponent ranges and rules for ties, as long as nothing overflows", "why_tests_cant": "All 2^128 operand pairs; errors appear only with cancellation or subnormal results.", "anchors": ["src/dd.h:ddadd2_vd2_vd_vd", "src/dd.h:ddadd_vd2_vd_vd", "src/dd.h:ddadd2_vd2_vd2_vd2", "src/dd.h:ddsub_vd2_vd2_vd2", "src/dd.h:ddnormalize_vd2_vd2", "src/df.h:dfadd2_vf2_vf_vf"]}
{"id": "C63", "title": "Double-double products, squares, reciprocals and quotients", "statement": "With fused multiply-add the SLEEF product of two numbers is exact; products and squares of normalised pairs, reciprocals and quotients have a relative error of at most a small multiple of 2^-2p (7, 11, 25 for product, reciprocal, quotient) as long as nothing under- or overflows. Without fused multiply-add, splitting with the masks of vupper makes the f32 product exact and the f64 product exact up to 2^-104, and products, squares and reciprocals of pairs keep errors of at most 14 * 2^-2p.", "quantifier": "for all normal operands, precisions and rules for ties", "why_tests_cant": "All operand pairs; the split and the residuals are exact only because of bit counts that hold for 53 and 24 bits.", "anchors": ["src/dd.h:ddmul_vd2_vd_vd", "src/dd.h:ddmul_vd2_vd2_vd2", "src/dd.h:dddiv_vd2_vd2_vd2", "src/dd.h:ddrec_vd2_vd", "src/dd.h:vupper_vd_vd", "src/df.h:vupper_vf_vf", "src/df.h:dfmul_vf2_vf_vf"]}
{"id": "C64", "title": "x86 lane insertion, lane extraction and the operators emulated with them", "statement": "The internal set_lane(v, s, i) of every x86 extension and element width changes lane i to s and no other bit, get_lane(v, i) returns lane i; hence operators without an instruction (division, some 8- and 64-bit products and arithmetic shifts) return in every lane exactly what the scalar operator returns on that lane, whatever the uninitialised register they start from, and are undefined exactly when the scalar operator is undefined on some lane. The same holds for the variant through local arrays.", "quantifier": "for all register contents, lanes, element types and the extensions SSE2, SSE4.2, AVX, AVX2 and AVX-512", "why_tests_cant": "Each lane number and element width has its own instruction sequence; a wrong immediate touches one lane only, and the uninitialised register happens to be zero in most runs.", "anchors": ["egg/platform_x86.py:set_lane", "egg/platform_x86.py:get_lane", "egg/platform_x86.py:get_emulation_code", "egg/platform_x86.py:div2", "egg/platform_x86.py:mul2"]}
{"id": "C65", "title": "Masked loads and stores on x86 touch exactly the enabled lanes", "statement": "On SSE, AVX, AVX2 and AVX-512, masked loads read element i into lane i where the mask is true, take the other lanes from the given vector (or zero) and access no memory for them; masked stores write exactly the enabled lanes; both are defined exactly when the enabled elements are mapped. Covers the byte-wise maskmoveu, maskload with blends, the loops over local buffers, the 8/16-bit stores split into halves, f16, and the AVX-512 mask instructions.", "quantifier": "for all memories, masks, registers and lane counts (masks all ones or zero per lane before AVX-512)", "why_tests_cant": "Faults and overwritten neighbours depend on the combination of mask and mapped pages; all combinations.", "anchors": ["egg/platform_x86.py:maskoz_load", "egg/platform_x86.py:mask_store"]}
{"id": "C66", "title": "Gather, scatter, their masked and linear forms, and f16 loads and stores on x86 access the right elements", "statement": "Lane i of gather (scatter) is read from (written to) the element at its own signed offset, of the linear forms at i times the step; masked forms access memory only for enabled lanes; when several lanes are aimed at one element the highest wins; no other element changes. f16 loads and stores convert element i to and from lane i, with and without F16C. Holds for buffer loops, lane insertion and extraction sequences, the AVX2/AVX-512 instructions and the AVX-512 forms made of two AVX2 calls.", "quantifier": "for all memories, offsets, masks, steps whose products fit an int, and lane counts", "why_tests_cant": "Each extension and type has another body; lane permutations need distinct data in all lanes, and the undefined initial register hides missing lanes.", "anchors": ["egg/platform_x86.py:gather", "egg/platform_x86.py:gather_linear", "egg/platform_x86.py:maskoz_gather", "egg/platform_x86.py:scatter", "egg/platform_x86.py:scatter_linear", "egg/platform_x86.py:mask_scatter", "egg/platform_x86.py:load", "egg/platform_x86.py:store"]}
{"id": "C67", "title": "Fixed point square roots and negative powers", "statement": "sqrt(a) of a positive fixed point number is defined and returns the square root rounded down to a multiple of 2^-rt, or one unit more. exp(a, 0) is 1, and exp(a, -n) of the inverse of an integer j is j^n if that is in range.", "quantifier": "for all formats with a storage type, all positive arguments and all exponents", "why_tests_cant": "The comment in the code says that ten iterations are enough for the few cases tested; whether they are depends on the magnitude of the argument, and the sums in the loop overflow only near the top of the range.", "anchors": ["include/nsimd/modules/fixed_point/function/sqrt.hpp:sqrt", "include/nsimd/modules/fixed_point/function/exp.hpp:exp"]}
{"id": "C68", "title": "Conversions on x86 convert every lane once and keep the order of the lanes", "statement": "cvt, upcvt and downcvt put the converted lanes of their arguments in order into their results. Integers become integers modulo 2^w, integers become floats by one rounding, floats become integers by discarding the fractional part, and the conversion is undefined only where that of C is.", "quantifier": "for all pairs of types allowed by the three operators, all x86 extensions and all values of all lanes", "why_tests_cant": "The bodies use unpacking with sign masks, splitting into halves, intermediate types and instructions whose rounding differs from that of C; the tests compare conversions of small integral values only.", "anchors": ["egg/platform_x86.py:convert1", "egg/platform_x86.py:upcvt1", "egg/platform_x86.py:downcvt1"]}
{"id": "C69", "title": "Logical vectors are stored as ones and zeros and read back", "statement": "storel writes the number 1 for true lanes and 0 for false lanes in the format of the type, changes nothing else and is defined exactly if the elements are mapped. loadl reads zeros (of either sign for floats) as false and everything else, NaN included, as true. loadl after storel gives the logical vector back.", "quantifier": "for all types, all lengths, all memories, addresses and logical vectors", "why_tests_cant": "Tests use a few values of one type at a time; -0, subnormals and NaN of f16 go through a conversion.", "anchors": ["egg/platform_cpu.py:loadl", "egg/platform_cpu.py:storel"]}
{"id": "C70", "title": "ARM loads and stores move every element to its own lane and back", "statement": "On NEON, AArch64 and SVE, load reads element i of memory into lane i, store writes lane i to element i, load2/3/4 reads element deg*i+j into lane i of vector j, store2/3/4 writes it back, for all types including f16 emulated with f32 pairs and f64 and 64-bit integers emulated on NEON. Each is defined exactly when the elements are mapped and stores change no other element.", "quantifier": "for all memories, addresses, vectors and lane counts", "why_tests_cant": "Emulated types use hand-written permutations of small local arrays; a wrong index shows only with distinct data in all lanes, and overruns only at the end of mapped memory.", "anchors": ["egg/platform_arm.py:load1234", "egg/platform_arm.py:store1234"]}
{"id": "C71", "title": "Masked and indexed ARM memory accesses touch exactly the chosen elements", "statement": "On NEON and SVE, masked loads and gathers take enabled lanes from memory and the others from the given vector (or zero); masked stores and scatters write enabled lanes only; gather, scatter and their linear forms use the element at the offset of the lane, or at i times the step; with colliding offsets the highest lane wins. Memory of disabled lanes is not accessed and no other element changes.", "quantifier": "for all memories, masks, offsets, steps whose products fit the index type, and lane counts", "why_tests_cant": "Faults depend on the combination of mask and mapped pages; each type has another body.", "anchors": ["egg/platform_arm.py:maskoz_load", "egg/platform_arm.py:mask_store", "egg/platform_arm.py:gather", "egg/platform_arm.py:scatter", "egg/platform_arm.py:gather_linear", "egg/platform_arm.py:scatter_linear", "egg/platform_arm.py:maskoz_gather", "egg/platform_arm.py:mask_scatter"]}
{"id": "C72", "title": "ARM zip and unzip interleave and separate lanes", "statement": "ziplo/ziphi interleave the low/high halves of two vectors, unziplo/unziphi collect the even/odd lanes of their concatenation, on NEON and SVE and for f16 held in two f32 registers and 64-bit types made of halves; unzip after zip returns the operands.", "quantifier": "for all vectors and lane counts", "why_tests_cant": "Each type composes other instructions; permutations need distinct data in all lanes.", "anchors": ["egg/platform_arm.py:zip_unzip_half", "egg/platform_arm.py:zip_unzip"]}
{"id": "C73", "title": "ARM integer arithmetic", "statement": "On NEON, AArch64 and SVE, add, sub, mul and neg of integers wrap modulo 2^w where they are one instruction, and return what the scalar operator returns wherever that is defined; 64-bit products on NEON, 64-bit neg and abs on neon128 and emulated divisions are the scalar operator on every lane, undefined exactly where it is. SVE division returns 0 for a zero divisor. min, max, abs, adds, subs (clamped to the range), iota and the bitwise operators return the exact values.", "quantifier": "for all integer types, lane counts and lane values", "why_tests_cant": "Each type and extension has another body (instruction, reinterpreted instruction, loop over a buffer); differences show only at the ends of the ranges.", "anchors": ["egg/platform_arm.py:addsub", "egg/platform_arm.py:mul2", "egg/platform_arm.py:div2", "egg/platform_arm.py:neg1", "egg/platform_arm.py:abs1", "egg/platform_arm.py:minmax2", "egg/platform_arm.py:adds", "egg/platform_arm.py:subs", "egg/platform_arm.py:iota", "egg/platform_arm.py:not1"]}
{"id": "C74", "title": "ARM comparisons, logicals, selection and reversal", "statement": "Comparisons give a logical vector that is true exactly in the lanes where the relation holds, ne exactly where eq is false (NaN included); andl, orl, xorl, andnotl, notl and set1l act on truth values; if_else1 selects by truth value; to_mask and to_logical convert between logicals and masks and are inverse; reinterpretl keeps truth values; storel and loadl write ones and zeros and read them back; reverse moves lane i to lane n-1-i. Holds for NEON registers, f16 in two f32 registers, 64-bit types emulated on neon128, SVE predicates, and SVE logicals emulated in registers, whose conversions to and from predicates are inverse.", "quantifier": "for all lane types, relations, lane counts and values", "why_tests_cant": "Logicals have four representations; operators assume lanes all ones or zero, which must hold for every producer.", "anchors": ["egg/platform_arm.py:cmp2", "egg/platform_arm.py:neq2", "egg/platform_arm.py:lop2", "egg/platform_arm.py:lnot1", "egg/platform_arm.py:lset1", "egg/platform_arm.py:if_else3", "egg/platform_arm.py:to_mask1", "egg/platform_arm.py:to_logical1", "egg/platform_arm.py:reinterpretl1", "egg/platform_arm.py:convert_to_predicate", "egg/platform_arm.py:convert_from_predicate", "egg/platform_arm.py:reverse1"]}
{"id": "C75", "title": "Integer operators on GPUs", "statement": "On CUDA, ROCm and oneAPI the operators on integers give the exact value reduced modulo 2^w where C defines it: add, sub, mul, div, neg, comparisons, shifts (shra rounds down), min, max, abs, bitwise operators, masks and logicals; adds and subs return the exact value clamped to the range of the type.", "quantifier": "for all integer types, operands and shift counts below the width", "why_tests_cant": "GPU bodies are generated from other templates than the CPU ones and the tests run on devices with random data; the ends of the ranges are not reached.", "anchors": ["egg/cuda.py:get_impl", "egg/rocm.py:get_impl", "egg/oneapi.py:get_impl"]}
{"id": "C76", "title": "Fused multiply-add operators and f16 minima on GPUs", "statement": "On CUDA, ROCm and oneAPI fma, fms, fnma and fnms compute a*b+c, a*b-c, -a*b+c and -a*b-c, and min and max of f16 return the smaller and the larger operand.", "quantifier": "for all types and operands", "why_tests_cant": "The sign is chosen by the generator, so a wrong test there is wrong for every input but may look like a rounding difference if operands are small.", "anchors": ["egg/cuda.py:get_impl", "egg/cuda.py:get_impl_f16", "egg/oneapi.py:get_impl", "egg/oneapi.py:get_impl_f16"]}
{"id": "C77", "title": "Reversal of x86 vectors", "statement": "reverse moves lane l of an n-lane vector to lane n-1-l, and reversing twice gives the vector back, on SSE2, SSE4.2, AVX, AVX2, AVX-512 KNL and Skylake, for every element type.", "quantifier": "for all register contents, extensions and element types", "why_tests_cant": "Fifteen different sequences of shuffles, half of them with literal masks of up to 32 numbers; a symmetric or constant test vector hides a wrong index.", "anchors": ["egg/platform_x86.py:reverse1"]}
{"id": "C78", "title": "Comparisons, logicals and selection on every x86 extension", "statement": "On SSE2, SSE4.2, AVX, AVX2, AVX-512 KNL and Skylake and for the eight integer types, eq, ne, lt, le, gt, ge compare the lane values of the type; andl, orl, xorl, andnotl, notl, set1l combine truth values; if_else1 selects lanes; to_mask and to_logical convert between logicals and all-ones or all-zero lanes; storel followed by loadl gives the logical back; all, any and nbtrue count its true lanes.", "quantifier": "for all register contents, extensions and integer types", "why_tests_cant": "Unsigned and 64-bit comparisons are assembled from signed or narrower ones, 256-bit ones from halves and AVX-512 ones from masks: each of the 48 combinations has its own path.", "anchors": ["egg/platform_x86.py:eq2", "egg/platform_x86.py:gt2", "egg/platform_x86.py:geq2", "egg/platform_x86.py:lop2", "egg/platform_x86.py:if_else1", "egg/platform_x86.py:to_mask1", "egg/platform_x86.py:all_any"]}
{"id": "C79", "title": "Integer arithmetic on every x86 extension", "statement": "On every x86 extension and for the eight integer types add, sub, neg, mul, fma, fms, fnma, fnms give the result modulo 2^w; shl, shr, shra multiply or divide (rounding down) by 2^s; min, max, abs are those of the values; adds and subs are the exact sum and difference clamped to the range of the type.", "quantifier": "for all register contents, extensions, integer types and shift counts below the width", "why_tests_cant": "8-bit and 64-bit products and shifts, 32- and 64-bit saturation are emulated with masks and wider lanes; wrong carries show for rare operands only.", "anchors": ["egg/platform_x86.py:addsub", "egg/platform_x86.py:mul2", "egg/platform_x86.py:shl_shr", "egg/platform_x86.py:shra", "egg/platform_x86.py:adds", "egg/platform_x86.py:subs", "egg/platform_x86.py:abs1", "egg/platform_x86.py:neg1", "egg/platform_x86.py:fma_fms"]}
{"id": "C80", "title": "Vector lanes agree with the scalar operators on x86", "statement": "On every x86 extension and for the eight integer types, lane i of add, sub, neg, mul, fma, fms, fnma, fnms, shl, shr, shra, min, max, abs, adds, subs, of the six comparisons, to_mask and to_logical has the bits the scalar function nsimd_scalar_* gives on the lanes i of the operands, whenever that function is defined.", "quantifier": "for all register contents, extensions and integer types", "why_tests_cant": "Agreement of 48 instruction sequences with C expressions under integer promotion; extreme operands of narrow types are where they can differ.", "anchors": ["egg/platform_x86.py:get_impl", "egg/scalar.py:get_impl"]}
{"id": "C81", "title": "Zip and unzip of unrolled packs", "statement": "zip and unzip of pack<T,N> are those of one vector with N times the lanes: member v0 of zip interleaves the low halves of the whole packs and v1 the high halves, and to_pack_interleave(zip(a, b)) lists a[0], b[0], a[1], b[1], ... over all lanes.", "quantifier": "for every unroll factor N, even lane count and contents", "why_tests_cant": "The tests of the shuffles use packs of one register, where register and pack coincide.", "anchors": ["egg/gen_adv_cxx_api.py:get_cxx_advanced_generic", "egg/operators.py:Zip", "egg/operators.py:Unzip", "include/nsimd/cxx_adv_api.hpp:to_pack_interleave"]}
{"id": "C82", "title": "POWER integer arithmetic", "statement": "On VMX and VSX add, sub, mul, neg and abs of integers give the result modulo 2^w (i64 on VMX: the exact result, undefined when it does not fit); div truncates and is undefined exactly for zero divisors and 32- or 64-bit quotients that do not fit; min and max are those of the values; adds and subs clamp the exact result to the range; fused operators agree modulo 2^w; the bitwise operators act bit by bit; iota holds the lane numbers; cvt between integers of one width keeps the value modulo 2^w.", "quantifier": "for all extensions, integer types, lane counts and lane values", "why_tests_cant": "Each operator has a native body, a scalar body for VMX and sometimes a lane by lane body for VSX; they differ only at the ends of the ranges.", "anchors": ["egg/platform_ppc.py:simple_op2", "egg/platform_ppc.py:div2", "egg/platform_ppc.py:neg1", "egg/platform_ppc.py:abs1", "egg/platform_ppc.py:minmax2", "egg/platform_ppc.py:add_sub_s", "egg/platform_ppc.py:fma", "egg/platform_ppc.py:binary_op2", "egg/platform_ppc.py:iota", "egg/platform_ppc.py:convert1"]}
{"id": "C83", "title": "POWER comparisons, masks and logical vectors in memory", "statement": "Comparisons give all ones in exactly the lanes where the relation holds between the values and zero elsewhere, ne exactly where eq is false, on native types, 64-bit types on VMX, floats and f16; to_logical undoes to_mask; reinterpretl between f16 and 16-bit integers keeps truth values; storel writes ones and zeros, and loadl reads the logical back.", "quantifier": "for all types, relations, lane counts and lane values", "why_tests_cant": "Logicals are registers, structs of u64 or pairs of registers; each operator assumes lanes all ones or zero.", "anchors": ["egg/platform_ppc.py:cmp2", "egg/platform_ppc.py:emulate_64", "egg/platform_ppc.py:emulate_with_scalar", "egg/platform_ppc.py:emulate_f16", "egg/platform_ppc.py:to_mask", "egg/platform_ppc.py:to_logical", "egg/platform_ppc.py:reinterpretl1", "egg/platform_ppc.py:loadl", "egg/platform_ppc.py:storel"]}
{"id": "C84", "title": "Conversions between integers and floats on ARM", "statement": "On NEON (with and without half precision instructions) and SVE: cvt, upcvt and downcvt of floats to integers give, in every lane and in lane order, the conversion of C wherever that is defined; elsewhere cvt saturates and takes NaN to 0 (64-bit conversions on neon128 are then undefined). upcvt of integers to floats is exact. downcvt of integers to floats and of floats to floats rounds the exact value once. An f16 vector held in two f32 registers keeps the order of the lanes, and reinterpreting 16-bit integers as such a vector and back keeps every lane that is not a NaN.", "quantifier": "all extensions, all lane counts, all lane values, all roundings to nearest, all contents of unspecified lanes", "why_tests_cant": "the interesting inputs are single values among 2^64 (double rounding) and lane orders that tests with equal or symmetric lanes do not see", "anchors": ["egg/platform_arm.py:convert1", "egg/platform_arm.py:upcvt1", "egg/platform_arm.py:downcvt1", "egg/platform_arm.py:reinterpret1"]}
{"id": "C85", "title": "Conversions between integers and floats on POWER", "statement": "On VMX and VSX: cvt, upcvt and downcvt of floats to integers give, in every lane and in lane order, the conversion of C wherever that is defined; the conversions to 64 bits on VMX, of f32 to 64-bit integers and of f64 to 32-bit integers are undefined elsewhere, the 32-bit and VSX cvt saturate except for NaN. cvt of 16-bit integers to f16 and upcvt of integers to floats are exact. downcvt of 64-bit integers and of f64 to f32 rounds the exact value once; downcvt of 32-bit integers to f16 gives, once stored, the value rounded once. Reinterpreting 16-bit integers as f16 and back keeps every lane that is not a NaN.", "quantifier": "both extensions, all lane counts, all lane values, all roundings to nearest, all results of the instructions on NaN", "why_tests_cant": "sign extension followed by a mask, packing without saturation and lane by lane code differ from the scalar conversion only for particular values and lane positions", "anchors": ["egg/platform_ppc.py:convert1", "egg/platform_ppc.py:upcvt1", "egg/platform_ppc.py:downcvt1", "egg/platform_ppc.py:reinterpret1"]}
{"id": "C86", "title": "SIMD fixed point numbers compute what the scalar ones do", "statement": "For every format fp_t<lf, rt> and every back end (CPU, every x86 extension, neon128, aarch64, SVE, VMX, VSX), simd_add, simd_sub, simd_mul, simd_div, simd_fma, simd_rec, simd_exp (every int exponent but the smallest) and simd_sqrt return, whenever the scalar function of the module is defined on all lanes, a register whose lanes are the scalar results; sums are exact, products rounded down and quotients rounded towards zero wherever the exact result is in range; simd_abs, simd_min and simd_max give the absolute value, the smallest and the largest of the represented numbers.", "quantifier": "all formats, all back ends, all registers (every number of lanes), all exponents", "why_tests_cant": "the tests compare with float computations on random values of a few formats, on one machine", "anchors": ["include/nsimd/modules/fixed_point/function/simd/mul.hpp", "include/nsimd/modules/fixed_point/function/simd/div.hpp", "include/nsimd/modules/fixed_point/function/simd/sqrt.hpp", "include/nsimd/modules/fixed_point/function/simd/exp.hpp", "include/nsimd/modules/fixed_point/simd.hpp"]}
{"id": "C87", "title": "Arithmetic on f16 through f32 is correctly rounded", "statement": "Without half precision hardware every scalar operator on f16, and every lane operation of the CPU back end between a load and a store, computes in f32 and converts back. For all finite operands, add, sub, mul, div, rec and sqrt (C99 and C89 code) return the f16 nearest to the exact result, ties to even, in spite of the two roundings; floor, ceil, trunc and neg are exact; fma, fms, fnma and fnms are correctly rounded as well.", "quantifier": "all finite f16 operands, every implementation of the f32 operations that rounds to nearest with any rule for ties", "why_tests_cant": "2^32 pairs of operands per operator and 2^48 triples for fma; the failing triples are those within one part in 2^24 of a midpoint", "anchors": ["egg/scalar.py", "egg/platform_cpu.py", "src/fp16.cpp"]}
{"id": "C88", "title": "Comparison, min, max, abs, neg, trunc and round_to_even of f32 and f64 scalars follow IEEE-754 values", "statement": "For all bit patterns of f32 and f64 the scalar comparisons agree with the order of the values: every comparison but ne is false on a NaN, zeros of both signs are equal, infinities are at the ends. min and max return one of their operands, never a worse one when there is no NaN, and the second one when there is a NaN or the operands compare equal. neg changes the sign bit only. abs has the absolute value of its argument; its sign bit is set exactly for -0 and for a NaN that had it clear. trunc rounds toward zero with the C99 and the C89 code and round_to_even gives the nearest integer, ties to even; both keep infinities and NaN. On a processor that follows IEEE-754 fma, fms, fnma and fnms of numbers round the exact ab+c, ab-c, -ab+c, -ab-c once with the C99 code, and the product and the sum with the C89 code; rec rounds the exact inverse.", "quantifier": "all bit patterns of both types, every library whose floor, ceil and trunc are exact, every rounding of the differences and halves, every processor whose arithmetic is that of IEEE-754 up to the choice of a NaN", "why_tests_cant": "2^64 patterns of f64 and 2^128 pairs; NaN payloads, signed zeros and ties are not reached by random tests", "anchors": ["egg/scalar.py"]}
{"id": "C89", "title": "x86 floating point operators compute the scalar operators on every lane", "statement": "For every x86 extension, f32 and f64, every register and every lane: add, sub, mul, div, sqrt, rec, neg, min and max return the scalar result bit for bit; the six comparisons give the logical of the scalar comparisons and if_else1 selects by it; floor, ceil, trunc and round_to_even, emulated or not, are defined and give the exact integral values, keeping infinities and NaN; abs clears the sign bit and differs from the scalar abs exactly on -0 and on a NaN with a clear sign; fma, fms, fnma and fnms return the result of the fused scalar operator (up to the choice of a NaN) with NSIMD_FMA or on AVX-512 and of the twice rounded one otherwise; rec11 and rsqrt11 of f64 are exact quotients before AVX-512. f16 operators apply this to all lanes of both f32 registers.", "quantifier": "all registers, lanes, extensions and both types, every choice of NaNs by the IEEE-754 instructions", "why_tests_cant": "2^256 registers per operator and lane; signed zeros, NaN signs and ties per lane and extension are not enumerated by tests", "anchors": ["egg/platform_x86.py", "egg/scalar.py"]}
{"id": "C90", "title": "ARM floating point operators against the scalar operators on every lane", "statement": "For ARMv7 NEON, AArch64 and SVE, f32 and f64, every vector and lane, up to the choice of a NaN: add, sub and mul are the IEEE results of the scalar operators (f32 on ARMv7: if operands and result are not small, and this is needed); div, sqrt, rec, rec11 and rsqrt11 are them everywhere; neg is the scalar operator bit for bit; abs has the absolute value and differs from the scalar abs exactly on -0 and on a NaN with a clear sign; min and max differ from the scalar operators exactly on a NaN against a number and on zeros of opposite signs in one order, and have the same value on numbers; comparisons, ne included, give the logical of the scalar comparisons (f32 on ARMv7: with subnormals taken as zero); fma, fms, fnma and fnms are the fused scalar operators on AArch64 and SVE, the scalar operators for f64 on ARMv7, and the twice rounded ones for f32 on ARMv7; floor, ceil, trunc and round_to_even are exact and keep infinities and NaN. f16 without half precision instructions applies this to all lanes of both f32 registers.", "quantifier": "all vectors, lengths, lanes, extensions and both types, any instructions that follow IEEE-754 with or without flushing of subnormals", "why_tests_cant": "tests compare with a tolerance, on few values, and never with NaN in one operand, signed zeros or subnormals", "anchors": ["egg/platform_arm.py", "egg/scalar.py"]}
{"id": "C91", "title": "POWER floating point operators against the scalar operators on every lane", "statement": "For VMX and VSX, f32 and f64, every vector and lane, up to the choice of a NaN: add, sub, mul, div, sqrt and rec are the IEEE results of the scalar operators; neg is the scalar operator bit for bit; abs has the absolute value and differs from the scalar abs exactly on -0 and on a NaN with a clear sign; min and max differ from the scalar operators exactly, on VMX, on a NaN against a number, on VSX, on a signaling NaN against a number and on a number against a quiet NaN, and on both on zeros of opposite signs in one order; comparisons are defined and give the logical of the scalar comparisons; fma and fms are the fused scalar operators; fnma and fnms are, except exactly where the exact result is zero with addends of opposite signs, where they give -0 and the scalar operators +0; f64 on VMX is computed by the scalar operators; floor, ceil, trunc and round_to_even are defined, exact and keep infinities and NaN. f16 applies this to all lanes of both f32 registers.", "quantifier": "all vectors, lengths, lanes, extensions and both types, any instructions that follow IEEE-754", "why_tests_cant": "tests compare with a tolerance in which -0 and +0 are equal, on few values, and never with NaN in one operand", "anchors": ["egg/platform_ppc.py", "egg/scalar.py"]}
{"id": "C92", "title": "Reinterpretation of f16 and of its logicals on x86", "statement": "reinterpret of an i16 or u16 vector to f16 is defined and gives, lane by lane and in lane order, the number of the half with these bits; going back gives the same bits in every lane that is not a NaN; a NaN comes back quiet with sign and payload where F16C instructions are used and as 0xffff where they are not, so the bits change exactly for signalling NaNs, respectively for NaNs other than 0xffff. reinterpretl between f16 and i16, u16, in both directions and on every extension, keeps the truth value of every lane in lane order and gives all-ones or all-zeros lanes (mask bits on AVX-512).", "quantifier": "all vectors and logical vectors, SSE, AVX, AVX2 and AVX-512, with and without F16C", "why_tests_cant": "the two halves of a register go different ways and NaN patterns are a small part of the inputs", "anchors": ["egg/platform_x86.py:reinterpret1", "egg/platform_x86.py:reinterpretl1"]}
{"id": "C93", "title": "Shifts, bitwise operators and equal_ulp of fixed point numbers", "statement": "shift_right divides the number by 2^b and rounds down to the format, shift_left multiplies it by 2^b when the product is in range and keeps the low bits otherwise; both are defined exactly for 0 <= b < width of the promoted storage type. bitwise_and, or, xor, nor, not act on each bit of the storage. equal_ulp(a, b, n) is true exactly when a and b differ by at most n units in the last place 2^-rt.", "quantifier": "all formats fp_t<lf, rt> that compile, all raw values, all counts and all n", "why_tests_cant": "equal_ulp has no test; results depend on storage width and wrap-around of promoted arithmetic", "anchors": ["include/nsimd/modules/fixed_point/function/shift.hpp", "include/nsimd/modules/fixed_point/function/bitwise_and.hpp", "include/nsimd/modules/fixed_point/function/eq_ulp.hpp"]}
{"id": "C94", "title": "fmod is the exact remainder", "statement": "For finite x and y != 0 the operator fmod returns exactly the remainder of C: x - n*y for an integer n, with the sign of x and a magnitude below |y|, without any rounding error although it is computed by repeated subtraction in double-double arithmetic with a bounded number of steps; lanes of the SIMD version do not influence each other and agree with the scalar version; y = 0 gives NaN.", "quantifier": "all f32 and f64 operands, all vector lengths, with and without fused multiply-add and rounding instructions", "why_tests_cant": "the number of steps needed depends on the ratio of the operands, and exactness on the last bits of intermediate quotients; sampling cannot reach all pairs of numbers", "anchors": ["src/sleefdp.c:xfmod", "src/sleefsp.c:xfmodf", "src/sleefsimddp.c:xfmod", "src/sleefsimdsp.c:xfmodf"]}
{"id": "C95", "title": "remainder is the exact IEEE remainder", "statement": "For finite x and y != 0 the operator remainder returns exactly x - n*y, where n is the integer nearest to x/y and the even one of two equally near, without any rounding error although the quotient is accumulated over a bounded number of steps of which only the parity is kept; lanes of the SIMD version do not influence each other and agree with the scalar version; y = 0 gives NaN.", "quantifier": "all f32 and f64 operands, all vector lengths, with and without fused multiply-add and rounding instructions", "why_tests_cant": "the result depends on the parity of a quotient of up to 1000 bits that is never stored, and exactness on the last bits of every partial quotient; sampling cannot reach all pairs of numbers", "anchors": ["src/sleefdp.c:xremainder", "src/sleefsp.c:xremainderf", "src/sleefsimddp.c:xremainder", "src/sleefsimdsp.c:xremainderf"]}
{"id": "C96", "title": "fmod and remainder of f16 are exact; mathematical functions act lane by lane", "statement": "For all finite f16 operands with a divisor that is not zero, fmod and remainder return exactly the remainder of C, with no restriction on the quotient: computing in f32 and converting back to f16 loses nothing, both in the scalar operator and in a load, operate, store sequence of the CPU back end. The f16 versions of the mathematical operators on SIMD, and the emulations of vectors of f64 (32-bit NEON, VMX) and of f32 (VMX), apply the function to every lane in place.", "quantifier": "all pairs of finite f16 patterns with a nonzero divisor, all vector lengths, any lanewise vector function", "why_tests_cant": "there are 2^32 pairs of f16 operands, the result relies on every intermediate f32 value, and the emulated back ends need hardware that is rarely tested", "anchors": ["egg/gen_archis.py:get_simd_implementation_src", "egg/scalar.py:get_impl", "src/sleefsimddp_emulation.c", "src/sleefsimdsp_emulation.c"]}
{"id": "C97", "title": "hypot_u35 is within 3.5 ulps of the exact distance", "statement": "For all finite operands x and y, hypot_u35 returns a number that differs from the real number sqrt(x*x + y*y) by at most 3.5 units in the last place, also when the result is subnormal, for operands of any ratio, with and without fused multiply-add; it returns infinity only when the exact value is within a relative 4 * 2^-p of the overflow threshold. If one operand is zero the result is exactly the absolute value of the other. The result does not depend on the order and the signs of the operands. If an operand is infinite the result is +infinity even when the other is a NaN; otherwise a NaN operand gives a NaN.", "quantifier": "all finite operands of f32 and f64 (any format with at least 6 digits), all tie-breaking rules of the rounding, all special operands", "why_tests_cant": "the bound has to hold for 2^64 or 2^128 pairs of operands and the worst cases are rare; a test compares against another approximation of the same precision", "anchors": ["src/sleefdp.c:xhypot_u35", "src/sleefsp.c:xhypotf_u35", "src/sleefsimddp.c:xhypot_u35", "src/sleefsimdsp.c:xhypotf_u35", "egg/operators.py:Hypot_u35"]}
{"id": "C98", "title": "exp_u10 is within 1 ulp of the exponential", "statement": "For every finite argument d, exp_u10 returns a number that differs from the real number e^d by at most 1 unit in the last place, also when the result is subnormal; it returns infinity only when e^d is within 1 ulp of the overflow threshold or above it.", "quantifier": "all finite arguments of f32 and f64, scalar and SIMD code, with and without fused multiply-add, all tie-breaking rules of the rounding", "why_tests_cant": "the bound has to hold for all 2^64 arguments; the margin between the bound and the error of the code is a small fraction of an ulp, so that a sample of arguments does not find the worst case", "anchors": ["src/sleefdp.c:xexp", "src/sleefsp.c:xexpf", "src/sleefsimddp.c:xexp", "src/sleefsimdsp.c:xexpf", "egg/operators.py:Exp_u10"]}
{"id": "C99", "title": "exp2_u35 is within 3.5 ulps of the power of two", "statement": "For every finite argument d, exp2_u35 returns a number that differs from the real number 2^d by at most 3.5 units in the last place, also when the result is subnormal; it returns infinity only when 2^d is within 3.5 ulps of the overflow threshold or above it. For the scalar code the claim is restricted to |d| <= 2^27 (see C101).", "quantifier": "all finite arguments of f32 and f64, scalar and SIMD code, with and without fused multiply-add, all tie-breaking rules of the rounding", "why_tests_cant": "the bound has to hold for all 2^64 arguments; a test compares against another approximation", "anchors": ["src/sleefdp.c:xexp2_u35", "src/sleefsp.c:xexp2f_u35", "src/sleefsimddp.c:xexp2_u35", "src/sleefsimdsp.c:xexp2f_u35", "egg/operators.py:Exp2_u35"]}
{"id": "C100", "title": "exp10_u35 is within 3.5 ulps of the power of ten", "statement": "For every finite argument d, exp10_u35 returns a number that differs from the real number 10^d by at most 3.5 units in the last place, also when the result is subnormal; it returns infinity only when 10^d is within 3.5 ulps of the overflow threshold or above it. For the scalar code the claim is restricted to |d| <= 2^27 (see C101).", "quantifier": "all finite arguments of f32 and f64, scalar and SIMD code, with and without fused multiply-add, all tie-breaking rules of the rounding", "why_tests_cant": "the bound has to hold for all 2^64 arguments; a test compares against another approximation", "anchors": ["src/sleefdp.c:xexp10_u35", "src/sleefsp.c:xexp10f_u35", "src/sleefsimddp.c:xexp10_u35", "src/sleefsimdsp.c:xexp10f_u35", "egg/operators.py:Exp10_u35"]}
{"id": "C101", "title": "the exponentials of infinities, NaN and huge arguments", "statement": "exp_u10, exp2_u35 and exp10_u35 give +infinity for +infinity, 0 for -infinity, a NaN for a NaN, and have defined behaviour for every finite argument, on every back end.", "quantifier": "f32 and f64, scalar and SIMD code, all arguments", "why_tests_cant": "undefined behaviour of a conversion shows up as any value, and on the usual machine as the right one", "anchors": ["src/sleefdp.c:rintk", "src/sleefsp.c:rintfk", "src/sleefsimddp.c:xexp", "egg/operators.py:Exp_u10"]}
{"id": "C102", "title": "cosh_u35 is within 3.5 ulps of the hyperbolic cosine", "statement": "For every finite argument x, cosh_u35 returns a number that differs from the real number cosh x by at most 3.5 units in the last place, and infinity only when cosh x is within 3.5 ulps of the overflow threshold or above it; infinities give +infinity and a NaN gives a NaN.", "quantifier": "all arguments of f32 and f64, scalar and SIMD code, with and without fused multiply-add, all tie-breaking rules of the rounding", "why_tests_cant": "the bound has to hold for all 2^64 arguments; a test compares against another approximation", "anchors": ["src/sleefdp.c:xcosh_u35", "src/sleefsp.c:xcoshf_u35", "src/sleefsimddp.c:xcosh_u35", "src/sleefsimdsp.c:xcoshf_u35", "egg/operators.py:Cosh_u35"]}
{"id": "C103", "title": "atan_u35 is within 3.5 ulps of the arctangent", "statement": "For every finite argument x, atan_u35 returns a finite number that differs from the real number arctan x by at most 3.5 units in the last place; +-infinity gives +-(the floating-point number nearest to pi/2), and a NaN gives a NaN.", "quantifier": "all arguments of f32 and f64, scalar and SIMD code, with and without fused multiply-add, all tie-breaking rules of the rounding", "why_tests_cant": "the bound has to hold for all 2^64 arguments; a test compares against another approximation", "anchors": ["src/sleefdp.c:xatan", "src/sleefsp.c:xatanf", "src/sleefsimddp.c:xatan", "src/sleefsimdsp.c:xatanf", "egg/operators.py:Atan_u35"]}
{"id": "C104", "title": "log_u35 is within 3.5 ulps of the logarithm", "statement": "For every positive finite number d, subnormal or not, log_u35 returns a finite number that differs from the real number log d by at most 3.5 units in the last place; zero gives minus infinity, a negative number or minus infinity gives NaN, plus infinity gives plus infinity and a NaN gives a NaN.", "quantifier": "all arguments of f32 and f64, scalar and SIMD code (except AVX-512), with and without fused multiply-add, all tie-breaking rules of the rounding", "why_tests_cant": "the bound has to hold for all 2^64 arguments, among them those near one where the result is tiny and those where the exponent term and the logarithm of the significand cancel; a test compares against another approximation", "anchors": ["src/sleefdp.c:xlog", "src/sleefsp.c:xlogf", "src/sleefsimddp.c:xlog", "src/sleefsimdsp.c:xlogf", "src/sleefdp.c:ilogb2k", "src/sleefdp.c:ldexp3k", "egg/operators.py:Log_u35"]}
{"id": "C105", "title": "cbrt_u35 is within 3 ulps of the cube root", "statement": "For every finite number d other than zero, negative and subnormal ones included, cbrt_u35 returns a finite number that differs from the real cube root of d by at most 3 units in the last place (the name promises 3.5); the cube root of zero is zero. In the SIMD code for f64 this depends on ties being rounded to even: for arguments between 1/2 and 1 the product that divides the exponent by three is an exact tie, and rounding it down would give half of the cube root.", "quantifier": "all finite arguments of f32 and f64, scalar and SIMD code (except AVX-512), with and without fused multiply-add; f64: rounding to nearest with ties to even, f32: all tie-breaking rules", "why_tests_cant": "the bound has to hold for all 2^64 arguments; the division of the exponent by three in floating-point arithmetic is right for one exponent only because of the tie-breaking rule, which a test on one machine does not show", "anchors": ["src/sleefdp.c:xcbrt", "src/sleefsp.c:xcbrtf", "src/sleefsimddp.c:xcbrt", "src/sleefsimdsp.c:xcbrtf", "src/sleefdp.c:ilogbk", "src/sleefdp.c:ldexp2k", "egg/operators.py:Cbrt_u35"]}
{"id": "C106", "title": "asin_u35 is within 3.5 ulps of the arc sine", "statement": "For every number d from -1 to 1, subnormal ones included, asin_u35 returns a finite number that differs from the real arc sine of d by at most 3.5 units in the last place, as its name promises. For a number outside of this interval, an infinity or NaN it returns NaN.", "quantifier": "all arguments of f32 and f64, scalar and SIMD code, with and without fused multiply-add, all tie-breaking rules of rounding to nearest", "why_tests_cant": "the bound has to hold for all 2^63 arguments of f64; for arguments above one half the result is the difference of pi/2 and twice a kernel whose error adds to four roundings and the error of the stored pi/2, 3.41 of the 3.5 units in total", "anchors": ["src/sleefdp.c:xasin", "src/sleefsp.c:xasinf", "src/sleefsimddp.c:xasin", "src/sleefsimdsp.c:xasinf", "src/misc.h:M_PI", "egg/operators.py:Asin_u35"]}
{"id": "C107", "title": "acos_u35 is within 3 ulps of the arc cosine", "statement": "For every number d from -1 to 1, acos_u35 returns a finite number that differs from the real arc cosine of d by at most 3 units in the last place (the name promises 3.5); this includes the numbers just below 1, whose arc cosine is small, and 1 itself, whose arc cosine is exactly 0. For a number outside of this interval, an infinity or NaN it returns NaN.", "quantifier": "all arguments of f32 and f64, scalar and SIMD code, with and without fused multiply-add, all tie-breaking rules of rounding to nearest", "why_tests_cant": "the bound has to hold for all 2^63 arguments of f64, relative to a result that vanishes at 1", "anchors": ["src/sleefdp.c:xacos", "src/sleefsp.c:xacosf", "src/sleefsimddp.c:xacos", "src/sleefsimdsp.c:xacosf", "src/sleefdp.c:ddadd_d2_d2_d", "egg/operators.py:Acos_u35"]}
{"id": "C108", "title": "atan2_u35 is within 3.5 ulps of the angle and has the sign of y", "statement": "For all finite y and x, zeros of both signs and subnormal numbers included, atan2_u35(y, x) returns a finite number with the sign bit of y whose absolute value differs from the angle of the point (x, |y|) in [0, pi] by at most 3.5 units in the last place, as its name promises; the sign of a zero x decides between 0 and pi if y is also zero. If an argument is infinite the result has the sign bit of y and is within 1 unit of the limit 0, pi/4, pi/2, 3pi/4 or pi. The result is NaN exactly if an argument is NaN.", "quantifier": "all pairs of arguments of f32 and f64, scalar and SIMD code, with and without fused multiply-add, all tie-breaking rules of rounding to nearest that commute with the sign", "why_tests_cant": "the bound has to hold for all 2^126 pairs of arguments of f64, in four octants with different reconstructions and with quotients that underflow", "anchors": ["src/sleefdp.c:xatan2", "src/sleefdp.c:atan2k", "src/sleefsp.c:xatan2f", "src/sleefsp.c:atan2kf", "src/sleefsimddp.c:xatan2", "src/sleefsimddp.c:atan2k", "src/sleefsimdsp.c:xatan2f", "src/sleefsimdsp.c:atan2kf", "egg/operators.py:Atan2_u35"]}
{"id": "C109", "title": "sin_u35 is within 3.5 ulps of the sine", "statement": "For all finite arguments sin_u35 returns a finite number that differs from the sine of the argument by at most 3.5 units in the last place of the sine, as its name promises, also close to the zeros of the sine, where the reduction by multiples of pi cancels.", "quantifier": "all finite arguments of f32 and f64, scalar and SIMD code, with and without fused multiply-add, all tie-breaking rules of rounding to nearest", "why_tests_cant": "the bound has to hold for all 2^64 arguments of f64, and the worst cases are the few arguments closest to multiples of pi", "anchors": ["src/sleefdp.c:xsin", "src/sleefsimddp.c:xsin", "src/misc.h:PI_A2", "src/misc.h:TRIGRANGEMAX2", "egg/operators.py:Sin_u35"]}
{"id": "C110", "title": "cos_u35 is within 3.5 ulps of the cosine", "statement": "For all finite arguments cos_u35 returns a finite number that differs from the cosine of the argument by at most 3.5 units in the last place of the cosine, as its name promises, also close to the zeros of the cosine, where the reduction by multiples of pi cancels.", "quantifier": "all finite arguments of f32 and f64, scalar and SIMD code, with and without fused multiply-add, all tie-breaking rules of rounding to nearest", "why_tests_cant": "the bound has to hold for all 2^64 arguments of f64, and the worst cases are the few arguments closest to multiples of pi", "anchors": ["src/sleefdp.c:xcos", "src/sleefsimddp.c:xcos", "src/misc.h:PI_A2", "src/misc.h:TRIGRANGEMAX2", "egg/operators.py:Cos_u35"]}
{"id": "C111", "title": "Mathematical functions of f16 are within 0.501 ulps", "statement": "exp_u10, exp2_u35, exp10_u35, cosh_u35, atan_u35, log_u35, cbrt_u35, asin_u35 and acos_u35 of f16, which convert to f32, call the function of f32 and convert back, return a result that differs from the exact value by at most 0.501 units in the last place of f16, with infinity only where the exact value is that close to 2^16 or above it.", "quantifier": "all finite arguments of f16 in the domain of the function, scalar operators and lanes of the CPU back end, scalar and SIMD code of the f32 function, with and without fused multiply-add, all tie-breaking rules of rounding to nearest in the f32 function", "why_tests_cant": "a test of all f16 arguments settles one compiler, one rounding of the f32 functions and one choice of fusion; the claim is for all of them, against the exact real function", "anchors": ["egg/scalar.py:get_impl", "egg/platform_cpu.py", "src/sleefsp.c", "src/sleefsimdsp.c", "src/fp16.cpp:nsimd_f32_to_u16"]}
{"id": "C112", "title": "atan2_u35 and hypot_u35 of f16 are within 0.501 ulps", "statement": "atan2_u35 of two finite numbers of f16 returns a finite number with the sign of the first argument, zeros of both signs included, whose absolute value differs from the angle of the point by at most 0.501 units in the last place of f16. hypot_u35 of two finite numbers of f16 differs from the square root of the sum of the squares by at most 0.501 units in the last place, with infinity only where the exact value is that close to 2^16 or above it.", "quantifier": "all pairs of finite f16, scalar operators and lanes of the CPU back end, scalar and SIMD code of the f32 function, with and without fused multiply-add, all tie-breaking rules of rounding to nearest in the f32 function (symmetric ones for atan2)", "why_tests_cant": "there are 2^32 pairs for each compiler, rounding and choice of fusion, and the claim is against the exact real function", "anchors": ["egg/scalar.py:get_impl", "egg/platform_cpu.py", "src/sleefsp.c", "src/sleefsimdsp.c", "src/fp16.cpp:nsimd_f32_to_u16"]}
{"id": "C113", "title": "Special values of the mathematical functions of f16", "statement": "On f16 log_u35 returns minus infinity for zeros, infinity for infinity and NaN for negative numbers, minus infinity and NaN; asin_u35 and acos_u35 return NaN outside of -1 to 1; exp_u10, exp2_u35 and exp10_u35 return infinity, zero and NaN for the infinities and NaN; cosh_u35 returns infinity for both infinities; atan_u35 and atan2_u35 return at the infinities the angle of the direction within 0.501 ulps, atan2_u35 with the sign of the first argument, and NaN if an argument is.", "quantifier": "all f16 patterns of the named kinds, all NaN payloads, scalar operators and lanes of the CPU back end, with and without fused multiply-add, scalar and SIMD code of the f32 function (SIMD only for exp and cosh)", "why_tests_cant": "a test settles one compiler and one target; the infinities and NaNs pass through two conversions written with integer operations and a float function whose tests of special values come after its arithmetic", "anchors": ["egg/scalar.py:get_impl", "src/fp16.cpp:nsimd_u16_to_f32", "src/fp16.cpp:nsimd_f32_to_u16", "src/sleefsp.c", "src/sleefsimdsp.c"]}
{"id": "C114", "title": "log2_u35 of f32 is accurate and its special values are right", "statement": "log2_u35 of f32 is documented to be within 3.5 ulps of the base-2 logarithm for every positive argument, subnormal ones included; it returns minus infinity for zero, infinity for infinity and NaN for negative numbers, minus infinity and NaN.", "quantifier": "all positive finite f32 arguments, scalar and SIMD code, with and without fused multiply-add", "why_tests_cant": "the tests compare a few random arguments between 0.5 and 20 on one target; the error has several roundings whose worst case is at few arguments, and subnormal arguments take another path", "anchors": ["src/sleefsp.c:xlog2f_u35", "src/sleefsimdsp.c:xlog2f_u35", "egg/operators.py:Log2_u35"]}
{"id": "C115", "title": "log2_u35 of f16 is within 0.501 ulps", "statement": "log2_u35 of f16 is within 0.501 ulps of the base-2 logarithm for every positive argument; it returns minus infinity for zeros, infinity for infinity and NaN for negative numbers, minus infinity and NaN.", "quantifier": "all f16 patterns, all NaN payloads, scalar operators and lanes of the CPU back end, with and without fused multiply-add, scalar and SIMD code of the f32 function", "why_tests_cant": "the operator converts to f32 with integer operations, calls a function on f32 and converts back; a test settles one target and its arguments", "anchors": ["egg/scalar.py:get_impl", "src/fp16.cpp:nsimd_u16_to_f32", "src/fp16.cpp:nsimd_f32_to_u16", "src/sleefsp.c:xlog2f_u35", "src/sleefsimdsp.c:xlog2f_u35"]}
{"id": "C116", "title": "log2_u35 is exact on powers of two", "statement": "log2_u35 of a power of two is its exponent, exactly, for f32 and f16, subnormal powers of two included.", "quantifier": "all powers of two of f32 and f16, scalar and SIMD code of the f32 function, with and without fused multiply-add, all roundings to nearest", "why_tests_cant": "the documented accuracy allows a result a few ulps off, so a test with tolerance accepts a logarithm just below the integer, which truncation then makes wrong; the tests draw arguments between 0.5 and 20 and no subnormal ones", "anchors": ["src/sleefsp.c:xlog2f_u35", "src/sleefsimdsp.c:xlog2f_u35", "egg/scalar.py:get_impl"]}
{"id": "C117", "title": "exp2_u35 is exact on integers", "statement": "exp2_u35 of an integer is the power of two, exactly, for f64, f32 and f16 whenever the power is a number of the type, subnormal ones included; on f32 log2_u35 of the result is the integer again.", "quantifier": "all integers whose power of two is a number of the type, scalar and SIMD code, with and without fused multiply-add, all roundings to nearest and all choices of the nearest integer", "why_tests_cant": "the documented accuracy allows a result a few ulps off, so a test with tolerance accepts a power next to the right one; the scaling multiplies by two powers that depend on the exponent and the second product is subnormal for small integers", "anchors": ["src/sleefdp.c:xexp2_u35", "src/sleefsp.c:xexp2f_u35", "src/sleefsimddp.c:xexp2_u35", "src/sleefsimdsp.c:xexp2f_u35", "egg/scalar.py:get_impl"]}
{"id": "C118", "title": "exp, exp10, cosh of 0 and log of 1 are exact", "statement": "exp_u10, exp10_u35 and cosh_u35 return exactly 1 for 0 and log_u35 returns exactly 0 for 1, for f64 and f32.", "quantifier": "scalar and SIMD code, with and without fused multiply-add, all roundings to nearest, also of the literals, and all choices of the nearest integer", "why_tests_cant": "the documented accuracy allows a neighbour of 1 and a tiny number instead of 0; a test settles one target, while the order of the operations and the fusions differ between the scalar and SIMD code and between targets", "anchors": ["src/sleefdp.c:xexp", "src/sleefdp.c:xlog", "src/sleefdp.c:xcosh_u35", "src/sleefsp.c:xexpf", "src/sleefsimddp.c:xexp", "src/sleefsimdsp.c:xexpf"]}
