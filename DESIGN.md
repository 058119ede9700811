# Formal model of nsimd: design

## Scope and trusted base

* Lean 4.33.0 kernel; Mathlib definitions and theorems, imported module by module.
* Axioms: every theorem named in `MANIFEST.json` depends on a subset of `propext`, `Classical.choice`,
  `Quot.sound` (`#print axioms` is run over the whole manifest before each commit). No axiom is added, there is no
  `sorry` or `admit`, no `native_decide`, no `bv_decide`.
* The model is written by hand from the text of `/repo`. nsimd generates most of its C with Python
  (`egg/`); the model follows the text the cited generator functions produce. Nothing of `/repo` is
  compiled or executed, so the correspondence between the C text and the Lean definitions is trusted.
  Each definition carries a comment with the file and lines it models, or says that it is a language
  rule, an instruction of the machine, a specification or a proof device.
* C rules trusted: `int` has 32 bits; integer promotion; two's complement narrowing of out-of-range values
  (implementation-defined before C++20, what gcc, clang and msvc do); undefined behaviour is a separate
  outcome (`none` in `Option`) for signed overflow, shift counts out of range, division by zero and
  access to unmapped memory.
* Intel intrinsics are modelled from their published semantics on bit vectors and lanes, only those
  used by the modelled functions.
* Floating point arithmetic: the half-precision conversion uses exact rational values with
  round-to-nearest-even (validated against an independent specification in C02); `round_to_even`, `trunc`
  and the fixed point conversions use rationals with an arbitrary rounding function of an arbitrary
  binary format. The sign of zero is not modelled there. Floating point vector arithmetic is not
  modelled; operators on float vectors are treated as uninterpreted per-lane functions where a property
  is about lanes, memory or control flow. The SLEEF functions (C94-C101) are modelled with every operation rounded to
  nearest by an arbitrary such rounding, hence any tie rule; the compiler is trusted not to contract or reorder.

## Conventions

* A register of `n` lanes of `α` is `Fin n → α`; `n` is arbitrary unless the code fixes it. AVX-512 masks
  are bit vectors. Memory is `Int → Option α`, `none` being unmapped.
* Integers are `BitVec w`; specifications use `Int`, `Nat` or `ℚ`.
* `Verif/Model/` holds the models, `Verif/Props/` the specifications and property theorems, each followed
  by `example`s that meet their hypotheses, `Verif/Lemmas/` helper lemmas.
* Where the code violates a property, the property is kept in `properties.jsonl`, the theorem of what holds
  has the suffix `_partial`, and a further theorem (usually named `..._counterexample`, `..._wrong`, `..._iff`,
  `..._overflow` or `..._undefined`) proves the violation on the model. The findings are listed at the end of this file.
* The theorems are tested by mutating the model in a scratch copy. Each attempt is one line of
  `seeded/LOG.jsonl`; definitions without a line there have not been mutated yet.

## Per property

The first column of statuses is that of `MANIFEST.json`.

| id | status | modelled code | proof, and what is missing |
|----|--------|---------------|---------------------------|
| C01 | proved | Model/Fp16: `nsimd_u16_to_f32` on bit vectors | value in ℚ of input and output, case split on the exponent, invariant of the normalisation loop |
| C02 | proved | Model/Fp16: `nsimd_f32_to_u16`; float comparison and the magic addition as IEEE rules | nearest-even specified on ℚ over all 16-bit patterns; the comparison and addition rules are themselves proved against that specification |
| C03 | proved | as C01, C02 | from C01, C02 |
| C04 | proved | as C02 | monotonicity of the nearest-even specification; sign symmetry by computation |
| C05 | partial | Model/Ufp: the `ufp` template with its loop | loop = bit length; exact characterisation of the returned value. Missing: the range claim is false (-1), set characterised |
| C06 | proved | Model/ScalarInt: scalar `adds` with promotion and undefined behaviour | case split, linear arithmetic, all eight types |
| C07 | partial | Model/ScalarInt, Model/X86Int: `subs` | as C06. Missing: `subs(a, INT_MIN)` is wrong, failure set proved exactly |
| C08 | proved | Model/X86Int: branch-free `adds`, three select variants | bit-vector algebra at every width |
| C09 | proved | Model/ScalarInt: scalar shifts | arithmetic on bit vectors, all counts |
| C10 | proved | Model/X86Int: 8-bit shifts through 16/32-bit lanes | bit extensionality at every width, arbitrary neighbours |
| C11 | proved | Model/X86Int: 8-bit multiplication | as C10 |
| C12 | proved | Model/X86Int: comparisons by sign-bit offset and 32-bit halves | as C10 |
| C13 | proved | Model/Cpu, Model/X86Mask: every operator returning logicals | closed set of produced vectors by induction, any lane count; AVX-512 masks separately |
| C14 | proved | Model/Cpu, Model/X86Mask: reductions, movemask forms | counting lemmas, any lane count; each x86 form with its own register layout |
| C15 | proved | Model/Popcnt: portable fallbacks | loop invariants. Compiler builtins are not code of the repo |
| C16 | proved | Model/Cpu: load, store | lane induction and memory frame; f16 rounding of stored lanes made explicit |
| C17 | proved | Model/Cpu: masked loads and stores | as C16; inactive addresses may be unmapped |
| C18 | proved | Model/Cpu, Model/X86Mask: mask_for_loop_tail and the documented loop | loop invariant over all n and lane counts, `int` overflow as undefined behaviour |
| C19 | proved | Model/Cpu: load2..4, store2..4 | lane induction |
| C20 | partial | Model/X86Deg: the shuffle networks of every instruction set and type, as deep-embedded selections | soundness of a symbolic evaluator by induction, then the complete lane table by kernel computation. Missing: false for the listed combinations, set proved exactly; f16 not modelled |
| C21 | proved | as C20 with the store networks | as C20 |
| C22 | proved | Model/Cpu: gather, scatter, linear and masked forms | lane induction, last writer wins |
| C23 | proved | Model/Cpu, Model/X86Shuffle, Model/X86Zip | index arithmetic on CPU for any lane count; symbolic evaluation on x86 including f16 |
| C24 | proved | Model/Cpu: upcvt, downcvt of integers | index and modular arithmetic |
| C25 | partial | Model/Cpu: reinterpret and bitwise operators | encoding round trips. Missing: f16, false (counterexamples) |
| C26 | proved | Model/Cpu: to_mask, to_logical, if_else1 | per lane |
| C27 | proved | Model/Pack: recursion of cxx_adv_api.hpp over the unroll factor | induction on N; `flatten` specified independently by `flat_spec` |
| C28 | partial | Model/Pack: gather/scatter/iota/tail on packs | Missing: false for N > 1; behaviour characterised for every N |
| C29 | proved | Model/Pack: to_pack, to_pack_interleave | induction on N |
| C30 | proved | Model/Tet1d: expression trees, CPU kernels | structural induction and loop invariant; aliasing made explicit |
| C31 | proved | Model/Tet1d: masked assignment | as C30 |
| C32 | proved | Model/Tet1d: compute_size, subranges | case analysis on all sizes |
| C33 | proved | Model/Spmd: CPU launch loop | loop induction with overflow |
| C34 | partial | Model/Spmd: masked interpreter of the SPMD macros against a per-lane interpreter | refinement by induction on fuel and program. Missing: k_continue and k_bool assignment, false (counterexamples) |
| C35 | partial | as C34 | termination measure over lanes. Missing: loops with k_break or inactive lanes, false (counterexamples) |
| C36 | proved | Model/Random: mulhilo variants | arithmetic on Nat |
| C37 | proved | Model/Random: Philox and the repository's reference | injectivity by modular inverses, finiteness; equality with the reference by induction on rounds |
| C38 | proved | Model/Random: Threefry, the reference, the published definition | explicit inverses; equalities by induction on rounds |
| C39 | partial | Model/Alloc: aligned allocation and the C++ allocators | arithmetic. Missing: byte counts above 2^63, false (counterexamples) |
| C40 | partial | Model/Launch: grid sizes and thread indices of CUDA, ROCm, oneAPI | exactly-once counting. Missing: grids beyond the 32-bit index, false (counterexamples) |
| C41 | partial | Model/Alloc: pair_malloc and friends with arbitrary failure patterns | case analysis. Missing: GPU host blocks too small, false (counterexample) |
| C42 | partial | Model/FloatClass | case split on bit fields. Missing: f16 and isnormal, false, classes characterised |
| C43 | proved | Model/Round: round_to_even, trunc | any binary format, any rounding mode of the intermediate differences |
| C44 | proved | Model/ScalarInt | linear arithmetic |
| C45 | partial | Model/FixedPoint: scalar operators, conversions, integer powers, SIMD product | floor/truncation specifications on ℚ, every format. Missing: `mul` with `rt = 0`, undefined (proved) |
| C46 | partial | Model/FixedPoint: comparisons, floor, ceil | Missing: false for every format with fractional bits; what they compute is characterised |
| C47 | proved | Model/CpuExpr: CPU vector and scalar operators | induction over expressions |
| C48 | proved | Model/ScalarInt | promotion rules, all types |
| C49 | proved | Model/X86Int: abs, min, max | bit-vector algebra |
| C50 | proved | Model/Tutorial: both loops of examples/tutorial.cpp | loop invariants |
| C51 | proved | Model/X86Mask: AVX-512 loadl, storel | per lane, any lane count |
| C52 | proved | Model/X86Mask: KNL split comparisons | per lane |
| C53 | proved | Model/PpcDeg: permute and merge networks of platform_ppc.py as symbolic byte shuffles; f16 lane loops | every byte of every shuffle traced by evaluating the symbolic shuffle once (whole finite table), then for all contents |
| C54 | partial | Model/PpcDeg: zip, unzip, reverse; Model/PpcLane: reverse of f16 and of VMX structs | as C53; `reverseF16_iff` characterises the failures |
| C55 | partial | Model/Arm: mask_for_loop_tail (same text on x86, ARM, POWER) | int overflow and lane type conversion. Missing: i8 beyond 1024 bits, false (exact failing set) |
| C56 | proved | Model/Arm: all, any, nbtrue; Model/Ppc: logical operators | induction over lanes; wrap-around of the reductions |
| C57 | partial | Model/Arm, Model/Ppc: shl, shr, shra | bit-vector algebra. Missing: POWER shra of unsigned types, false (exact failing set) |
| C58 | proved | Model/Arm, Model/Ppc: integer fma family | ring identities on bit vectors |
| C59 | proved | Model/Arm, Model/Ppc: integer upcvt, downcvt | index and modular arithmetic |
| C60 | partial | Model/Ppc: masked loads and stores, gather, scatter, linear forms | lane insertion and store sequences by induction. Missing: f16 gather, false (counterexample, exact behaviour) |
| C61 | partial | Model/Addv: addv of every back end over an arbitrary addition | each implementation is a summation tree in which every lane occurs once; exactness and the error bound for any tree by induction. Missing: ARM f16 with NSIMD_ARM_FP16, false (exact value) |
| C62 | proved | Model/DoubleDouble: sums of dd.h and df.h over ℚ with a rounding function | two-sum and fast two-sum for any round-to-nearest (Lemmas/Float, Lemmas/DoubleDouble); error bounds by the triangle inequality |
| C63 | proved | Model/DoubleDouble: products, squares, reciprocals, quotients, with and without fused multiply-add; vupper on bit patterns | representability of residuals; Dekker's product with the splits of 27 and 12 bits (Nearest.split_core), the masks proved to be those splits |
| C64 | partial | Model/X86Lane: set_lane, get_lane of all extensions, get_emulation_code, emulated div, mul, shra | lane/bit extensionality for every instruction sequence; filling all lanes by induction on the number of lanes. Missing: the 32-bit variant, false unless local arrays are aligned (exact condition) |
| C65 | proved | Model/X86Mem: maskoz_load, mask_store of every extension | one specification (ReadsAt, WritesAt) for all bodies; canonical masks make top bits, byte masks and truth values agree; store sequences by induction |
| C66 | proved | Model/X86Mem: gather, scatter, masked and linear forms, f16 load and store | same specifications; a sequence of stores over n+n lanes is the two sequences over the halves; lane insertion from C64 |
| C67 | partial | Model/FixedPoint: sqrt, exp with an integer exponent | the loop is Newton's iteration on naturals (Lemmas/Newton): never below the integer root, error halved by each step, squared once it is small; leaving the loop early changes nothing. Missing: arguments beyond 2^12, near the top of the range and zero, false (witnesses), only an error of (a+1)/1024 is proved |
| C68 | partial | Model/X86Cvt: cvt, upcvt, downcvt of all pairs of types and all extensions | lane extensionality; unpacking with a sign mask is sign extension (cases on types, omega); truncation characterised by inequalities, rounding to nearest agrees with it iff the distance is below 1/2 or a tie at an even number. Missing: float to integer through instructions or 32-bit types, i64 to f32 on AVX-512, false (witnesses) |
| C69 | proved | Model/Cpu: storel, loadl and the element types | the numbers 1 and 0 and the zero test given by the memory formats (integers, binary16/32/64); f16 through the conversion lemmas of C01 |
| C70 | proved | Model/ArmMem: loads, stores and deg 2/3/4 forms of NEON, AArch64 and SVE, f16 and 64-bit emulations | specifications ReadsDeg/WritesDeg over element deg*i+j; sequences of stores by induction (Lemmas/Cpu), emulations by lane extensionality |
| C71 | proved | Model/ArmMem: masked and indexed loads and stores | specifications ReadsAt/WritesAt of C65/C66 for all bodies |
| C72 | proved | Model/ArmMem: zip and unzip | specifications Interleaves/Strides by lane arithmetic; unzip of zip by composing them |
| C73 | proved | Model/ArmLane: integer add, sub, mul, div, neg, abs, min, max, adds, subs, iota, bitwise operators | casts of sums and products of values are BitVec operations; promotion keeps values modulo 2^w; clamping by omega |
| C74 | proved | Model/ArmLane: comparisons, logicals, selection, masks, reinterpretl, loadl, storel, reverse | one specification (Represents: lanes all ones or zero with given truth values), preserved by every operator; f16 pairs through concatenation of the halves |
| C75 | partial | Model/Gpu: Cuda (also ROCm) and OneApi integer bodies | C integer semantics as for the scalar back end (C06-C09, C48); shifts of unsigned types are the same expression. Missing: subs of the smallest value, false |
| C76 | partial | Model/Gpu: negFirst, negLast (the Python list tests), fused, fusedF, minmaxF16 | the four names are decided; congruence modulo 2^w gives the exact set of operands for which CUDA is right. Missing: fms, fnma, fnms and f16 min/max on CUDA, false (witnesses) |
| C77 | partial | Model/X86Rev: reverse (one branch per extension and type), reverseF16 | byte tracing through the shuffle expressions (as C20, C23), decided over the whole table of extensions and types, lifted to all register contents by Sh.eval_src. Missing: f16 and f64 on AVX-512, false |
| C78 | proved | whole registers of every extension, `X86Ops` (the dispatch of platform_x86.py per extension and type) | `Repr x t l p` (register or mask `l` holds the predicate `p`) is preserved by every operator; case tables per extension, lane lemmas for halves and emulation |
| C79 | partial | `X86Ops` arithmetic: instructions lane by lane, emulations through halves, wider lanes or scalar code as generated | per operator one lane theorem over all extensions and types; `subs_partial` is an equivalence |
| C80 | partial | `X86Ops` against `Scalar` | the lane theorems of C79 composed with C06, C07, C09, C44, C48 |
| C81 | partial | `Pack.zip`, `Pack.unzip` from the template for two vector arguments and a packx2 result | induction over the registers; `interleave_zip` composes it with `to_pack_interleave` (C29) and the zip of one register (C23) |
| C82 | partial | `Model/PpcLane`: operators by extension and type, VMX 64-bit types through the scalar operators of C48 | lane theorems against the values; `Wraps` states definedness and value in one |
| C83 | proved | `Model/PpcLane`: comparisons and logicals; `Represents` (C74) as meaning of a logical | lane by lane; `fromLanes` (splat and inserts) by `fromLanes_eq_some` |
| C84 | partial | `Model/ArmCvt`: integer lanes as bit vectors, floats as rationals with infinities and NaN; instructions as C rules with saturation; unspecified lanes of `svcvt` arbitrary | lane order by index arithmetic; the intermediate types by exactness of integers of at most `p` bits; the failure by two neighbours of a midpoint |
| C85 | proved | `Model/PpcCvt`: as `Model/ArmCvt`; `vec_unpackh/l`, `vec_pack` and `vec_cts/ctu` by their lanes, the result for NaN arbitrary; lane by lane code by `Ppc.fromLanes` | lane order by index arithmetic; masks by bits; exactness of integers of at most `p` bits |
| C86 | proved | `Model/FixedSimd`: the SIMD functions of the fixed point module over a record of the nsimd operators they call, with one record per family of targets | Lane by lane simulation of the scalar module from a contract on the operators, then the contract for each back end from C47, C78, C70, C82; the early exit of the scalar square root happens at a fixed point of the vector loop |
| C87 | partial | `Model/F16Arith`: the f16 branches of the scalar operators over arbitrary f32 operations, and a CPU lane | Double rounding: an f32 rounding followed by f16 is correct unless the f32 is a midpoint of f16 and inexact; a separation argument per operator excludes that (sums, quotients, roots of 11-bit significands stay further than 2^-24 from 12-bit numbers); reals only for sqrt |
| C88 | proved | `Model/FloatLane`: the f32 and f64 operators of egg/scalar.py on bit patterns; rounded arithmetic and libm are parameters | Patterns are sign and magnitude; the magnitude is strictly monotone in the value, which gives the comparisons; rounding reduces to the C43 theorems through the datum of a pattern; exists_ok constructs operations that meet the hypotheses. `Lemmas/Ieee` is an IEEE-754 reference computed from exact results, proved to round to nearest; a processor is assumed to agree with it up to the choice of a NaN (`IsIeee`) |
| C89 | proved | `Model/X86Float`: float operators of egg/platform_x86.py on registers; arithmetic instructions are parameters shared with the scalar operators | Lane lemmas of `X86Ops` and the emulation theorem of C64 reduce each operator to one lane; masks are related to predicates by `Repr`; rounding uses C88 and C43 |
| C90 | proved | `Model/ArmFloat`: float operators of egg/platform_arm.py by extension; instructions are parameters, comparisons and selections those of `Model/ArmLane` | Case analysis on the extension; commutation and sign lemmas of the IEEE-754 reference (`Lemmas/Ieee`) relate `vfmaq`, `svnmls`, ... to the scalar operators; minimum by comparison of keys |
| C91 | proved | `Model/PpcFloat`: float operators of egg/platform_ppc.py on VMX and VSX; instructions are parameters, comparisons those of `Model/PpcLane` | Case analysis on NaN, infinities and exact zeros of the IEEE-754 reference for negation after rounding (`neg_fma`); minimum through the ARM theorem of C90 |
| C92 | proved | `Model/X86Rei`: the f16 branches of reinterpret1 and reinterpretl1 of egg/platform_x86.py, bit patterns; F16C conversions on NaN from the Intel manual, otherwise the exact conversions of C01 and C02 | Round trip of C03 per lane, bit by bit for NaN; shuffles and unpacks index by index |
| C93 | partial | `Model/FixedUlp`: shift.hpp, bitwise_*.hpp and eq_ulp.hpp of the fixed point module, with integer promotion and overflow | Arithmetic of floor division and balanced remainder; bits by extensionality. `equal_ulp` is characterized for all operands and the claim refuted |
| C94 | partial | `Model/Fmod`: `xfmod`, `xfmodf` scalar and SIMD (versions with a divided reciprocal) with the bit functions `toward0`, `removelsb`, `upper`, the truncations, Dekker or fused products, the scaling, the loops and their early exits; IEEE-754 rounding to nearest even | Invariant of the loop: the pair is the rounded remainder and its exact rounding error, the remainder is `n - k*d`. Each quotient is bounded on both sides by the neighbours toward zero, each product and sum is proved exact, ties to even decide the comparison with `2*d`; a potential bounds the number of steps |
| C95 | partial | `Model/Remainder`: `xremainder`, `xremainderf` scalar and SIMD (versions with a divided reciprocal) with `rintk2`, `rintfk2`, `removelsb`, `xisodd` and the other parity tests, the correction of quotients whose product is infinite, the scaling, the loops and their early exits; IEEE-754 rounding to nearest even | Invariant of the loop: the pair is the rounded remainder and its exact rounding error, the remainder is `n - k*d`, the flag is the parity of `k`. A grid argument proves each sum exact, each step shrinks the remainder by `6/2^p` or ends; the specification is the nearest even integer quotient, whose uniqueness is proved |
| C96 | proved | `Model/MathCalls`: scalar `f16` path of the source operators, per-lane calls of the CPU back end, `upcvt`, two `f32` calls, `downcvt` on the SIMD back ends, the emulations of src/sleefsimddp_emulation.c and src/sleefsimdsp_emulation.c; the functions themselves are parameters | A remainder not larger than either operand is a number of their format (`rep_left`), so the conversion back to f16 is exact; f16 quotients are below 2^40, hence in the range of C94 and C95; lanes by the specifications of `upcvt` and `downcvt` (C68, C84) |
| C97 | proved | `Model/Hypot`: `xhypot_u35`, `xhypotf_u35`, scalar and SIMD, with the order of the tests for zero, NaN and infinity, as rational arithmetic with a rounding and a nearest square root as parameters | Error of each operation in ℝ (`Lemmas/Hypot`): quotient and square 3u on t², sum 2.5u, root 2.25u, last product 3.25u relative to the exact value, plus an absolute error where a subnormal number occurs |
| C98 | partial | `Model/Exp`, `Model/FlExpr`: `xexp`, `xexpf`, scalar and SIMD with both polynomials of the f64 SIMD code, literals as written and rounded by the compiler (twice for f32), the reduction, the Horner and Estrin sums, `ldexp2k`, the final tests | `Lemmas/PolyBound`: a polynomial is below a bound on an interval, checked by exact rational arithmetic in the kernel; `Lemmas/FlBound`: interval error analysis of an expression, a function from the expression to an error bound proved sound once; `Lemmas/ExpBound`, `ExpReduce`, `ExpFinish`: reduction and scaling; `ExpKernels`, `ExpChecks`: the numbers. The spec is `Ulp.Within` against `Real.exp`. Missing: 1 ulp instead of 1.17 without fused multiply-add; false near the overflow threshold |
| C99 | proved | `Model/Exp`: `xexp2_u35`, `xexp2f_u35` | as C98, against `2 ^ d` in ℝ; proved with 2.5 ulps |
| C100 | proved | `Model/Exp`: `xexp10_u35`, `xexp10f_u35` | as C98, against `10 ^ d` in ℝ; proved with 2.9 ulps |
| C101 | partial | `Model/Exp`: `select`, `rintk` | computation. Missing: scalar code, where the claim is false |
| C102 | partial | `Model/Cosh`: `xcosh_u35`, `xcoshf_u35`, scalar and SIMD, on top of `xexp`, `xexpf` | error propagation by hand from the 1.17 ulps of C98; `Lemmas/UlpTools`. Spec: `Ulp.Within` against `Real.cosh`. Missing: 709 < abs x < 710.48 and 88 < abs x < 89.42, where the claim is false |
| C103 | proved | `Model/Atan`: `xatan`, `xatanf`, scalar and SIMD, with and without fusion | the polynomial is compared with another one (`atanCert`) which is close to the arctangent because its derivative times `1 + s^2` is close to one (`Lemmas/PolyDeriv`); rounding errors by interval evaluation (`Lemmas/AtanBound`, `AtanKernels`); the reconstruction by hand (`Lemmas/AtanFinish`). Spec: `Ulp.Within` against `Real.arctan`, `halfPi_nearest` for the infinities |
| C104 | proved | `Model/Log`: `xlog`, `xlogf`, scalar and SIMD, with and without fusion | exponent and significand exactly (`Lemmas/LogSplit`); the polynomial against the series of the area tangent (`Lemmas/LogNear`); rounding errors by interval evaluation (`Lemmas/LogBound`), near one in ulps of the result (`Lemmas/LogF32`); the sum with the exponent term by cases (`Lemmas/LogCombine`). Spec: `Ulp.Within` against `Real.log` |
| C105 | proved | `Model/Cbrt`: `xcbrt`, `xcbrtf`, scalar and SIMD, with and without fusion, for finite arguments | exponent, its third and the scaling exactly (`Lemmas/CbrtSplit`); the polynomial and Newton's step by interval evaluation and an exact polynomial inequality (`Lemmas/CbrtPoly`); the last step with its rounding errors (`Lemmas/CbrtStep`). Spec: `Ulp.Within` against any real `y` with `y ^ 3 = d` |
| C106 | proved | `Model/Asin`: `xasin`, `xasinf`, scalar and SIMD, with and without fusion, all arguments | the polynomial against the Taylor series of the arc sine by interval evaluation (`Lemmas/AsinPoly`), rounding errors of the kernel (`Lemmas/AsinKernel`), `arccos d = 2 arcsin (√((1 - d) / 2))`. Spec: `Ulp.Within` against `Real.arcsin` |
| C107 | proved | `Model/Asin`: `xacos`, `xacosf`, scalar and SIMD, with and without fusion, all arguments | as C106. Spec: `Ulp.Within` against `Real.arccos` |
| C108 | proved | `Model/Atan2`: `xatan2`, `xatan2f` with `atan2k`, scalar and SIMD, with and without fusion, all arguments with the signs of zeros and infinities | kernel and constants of C103; the error of the rounded quotient, relative or absolute where it underflows (`Lemmas/Atan2`). Spec: `SignedWithin` with `Ulp.Within` against `Complex.arg`; a table of the limits for infinities |
| C109, C110 | partial | `Model/Sin`: `xsin`, `xcos`, f64, the branch for arguments below `TRIGRANGEMAX2`, scalar and SIMD, with and without fusion | the first step of the reduction is exact or its result is large enough (`Lemmas/SinReduce`, with 34 digits of pi from `Lemmas/PiBounds`); Taylor series for the polynomial (`Lemmas/SinPoly`); errors of the kernel and of the last rounding in four ranges of the rest (`Lemmas/SinKernel`, `Lemmas/SinFinish`). Spec: `Ulp.Within` against `Real.sin`, `Real.cos`. Missing: the reductions of larger arguments, f32, infinities and NaN, the sign of zero |
| C111 | proved | `Model/MathCalls` with the f32 functions of C98-C107 | a result of f32 within 4 ulps is within 2^-11 ulps of f16, and the conversion adds half an ulp, also when it crosses a power of two or 2^16 (`cvt_within`, from the nearest-even theorem of C02). Where `cosh` of f32 returns infinity too early the exact value is above 2^16. Spec: `Ulp.Within` for f16 (`AccurateF16`) |
| C112 | proved | `Model/MathCalls` with `xatan2f` (C108) and `hypot35` (C97) | `cvt_within` of C111; the sign bits go through both conversions unchanged, and results of `hypot` below 2^17 cannot overflow in f32. Spec: `Atan2.angle`, `Real.sqrt`, `Ulp.Within` for f16 |
| C113 | proved | `Model/MathCalls`, `Model/Fp16` with the f32 functions of C98-C108 | the conversions keep infinities with their signs, NaNs and zero (C01, C02), so the special cases of the f32 functions carry over; the finite limits of `atan` and `atan2` by `cvt_within` of C111. Not covered: infinities and NaN in the scalar code of `exp` and `cosh`, undefined in the code |
| C114 | partial | `Model/Log2` (`xlog2f_u35`, scalar and SIMD; the splitting of `Model/Log`) | without exponent by the checked error bounds of C98-C108 relative to the logarithm; with an exponent by absolute bounds of each rounding, finest where the exponent is -1 and the result is below 1/2. Proved: 3.5 ulps up to the square root of one half and from the square root of two, 4.5 ulps between. Missing: 3.5 ulps between, since the roundings are bounded one by one. Not modelled: `xlog2_u35` for f64 (double-double) and the branches for AVX-512 |
| C115 | proved | `Model/MathCalls`, `Model/Fp16`, `Model/Log2` | `cvt_within` of C111, which takes any f32 result within eight ulps; special values as in C113 |
| C116 | proved | `Model/Log2`, `Model/MathCalls`, `Model/Fp16` | the splitting gives the significand 1, all terms but the exponent are zero, and integers of eleven bits are exact in f32 and f16 |
| C117 | proved | `Model/Exp`, `Model/Log2`, `Model/MathCalls`, `Model/Fp16` | the integer next to an integer is itself, the polynomial at 0 is 1 and both products of the scaling are powers of two in range |
| C118 | proved | `Model/Exp`, `Model/Cosh`, `Model/Log` | evaluation of the code with any rounding to nearest, which leaves 0, 1/2 and 1 unchanged |

## Not modelled

* The arithmetic instructions of f32 and f64 are parameters of the models of float operators, assumed to agree with an
  IEEE-754 reference (`Lemmas/Ieee`) up to the choice of a NaN (C88-C91); scalar f16 arithmetic is C87. Of the vendored SLEEF (src/) only `fmod` (C94), `remainder` (C95), `hypot_u35` (C97), `exp_u10`, `exp2_u35`,
  `exp10_u35` (C98-C101), `cosh_u35` (C102), `atan_u35` (C103), `log_u35` (C104), `cbrt_u35` (C105), `asin_u35` and `acos_u35` (C106, C107), `atan2_u35` (C108), `sin_u35` and `cos_u35` below 15 in f64 (C109, C110) and the double-double arithmetic of dd.h
  and df.h are modelled, the latter without ddsqrt, ddabs, and the quotient and reciprocal of pairs without fused multiply-add;
  overflow, infinities, NaN and the sign of zero are excluded there.
* ARM: `rec8`, `rsqrt8` and the half precision instructions. POWER: the estimates `vec_re`, `vec_rsqrte`.
* CUDA, ROCm and oneAPI operators on floats except fused operators and f16 minima (they are calls of device
  functions).
* Fixed point `log`, `log2`, `sin`, `cos`, `tan`, non-integer `exp` (approximations without a stated error
  bound).
* Build system, test and benchmark generators, documentation generator, nsconfig.

## Findings

Violations of the stated properties or of the documentation, each proved on the model unless marked
"read".

* `subs(a, INT_MIN)` of signed types negates its second operand: wrong on the scalar and CPU back ends and
  on x86 for i32/i64, while x86 i8/i16 use the saturating instructions (C07).
* `nsimd_ufp_*` can return -1, ignores sign bits, and gives subnormals an implicit bit (C05).
* KNL 8-bit shifts through 32-bit lanes leak into the neighbour for counts above 8, outside the API's
  domain (C10).
* CPU f16: memory round trips turn NaN payloads into 0xffff; bitwise operators act on the f32
  representation; u16 → f16 → u16 reinterpretation is not the identity on NaNs (C16, C25); on x86 it is not either (C92).
* The scalar `xorl` is the bitwise xor of the truth values, wrong for values other than 0 and 1 (C47).
* AVX-512 `loadl` of f16 reads -0.0 as true, the CPU back end as false (C13).
* AVX, AVX2 and AVX-512 `load2`/`load4` of several types return the structures in a permuted lane order;
  `store2`/`store4` apply the inverse permutation (C20, C21).
* `mask_for_loop_tail` overflows `int` near INT_MAX; `gather_linear`/`scatter_linear` overflow `int` products (C18,
  C22).
* Unrolled packs (N > 1): gather, scatter, their linear forms, iota and mask_for_loop_tail do not follow the
  global lane index (C28); `zip` and `unzip` work register by register (C81); `upcvt` of packs with N > 1 declares its
  `cdr` with the source type and does not compile (read). `to_pack_interleave` of `packx1<T, 1>` does not compile; compound assignments
  ignore the `SimdExt` of the pack (read).
* tet1d: one-element subranges are rejected, `compute_size(-1, -1, n)` fails, the vector part of a masked
  assignment evaluates unselected elements, empty expressions fail an assertion on GPUs (C31, C32, C40).
* SPMD: `k_while` tests the condition of all lanes, so loops with `k_break` or inactive lanes may not
  terminate; lanes that executed `k_continue` stay inactive; `k_set` on `k_bool` clears inactive lanes (C34,
  C35).
* Threefry 4x with an odd number of rounds exchanges words 1 and 3 of the published definition (C38).
* C++11 allocator: n*sizeof(T) overflows after passing the check; the C++98 allocator does not check (C39).
* CUDA and ROCm: `fms`, `fnma` and `fnms` compute `a*b+c` on every type, because the generator tests
  `name in ['fnma, fnms']`, a list of one string; `min` and `max` of f16 are generated as `if (__hlt)`, so they return
  the first operand; `subs` negates its second operand (C75, C76).
* CUDA thread index overflows `int`, ROCm wraps at 2^32 for large grids; tet1d assignments of more than 2^31
  elements evaluate negative indices on every GPU backend (C40).
* `pair_malloc` on GPUs allocates `sz` bytes on the host instead of `sz * sizeof(T)`; GPU `pair_calloc`
  and `pair_free` do not compile (read) (C41).
* `isnan_f16` is true for infinities, `isinf_f16` is never true, `isnormal_f16` is true exactly for subnormals
  and -0, `isnormal_f32/f64` for everything but subnormals (C42).
* The comments of `round_to_even` claim that the differences are exactly representable, which is false; the
  result is right nevertheless (C43).
* Fixed point, SIMD interface (C86): `simd_floor` is declared with `typederf`, so `function/simd/exp.hpp`, which
  includes it, does not compile; `simd_math.hpp` includes neither `exp`, `floor` nor `sqrt`; `simd_exp(a, INT_MIN)`
  negates `INT_MIN`; `simd_sqrt` divides by zero in zero lanes (the test that would stop is commented out).
  The constant `e` of constants.hpp is written 2.718281828469045 (it is 2.718281828459045). The SIMD product is
  defined for `rt = 0`, where the scalar one is not, and the SIMD comparisons are exact where the scalar ones are not.
* Fixed point: comparisons ignore fractional bits, `floor(1) = 0`, `ceil(2) = 1`, `is_int(2^-rt)` is true, `sqrt(0)` divides by zero, `mul` with
  `rt = 0` is undefined (C45, C46). `sqrt` stops after ten iterations, far too few for large numbers
  (`sqrt(2^30)` in `fp_t<32, 8>` exceeds 2^20), and its sums overflow near the top of the range (`sqrt(127)` in
  `fp_t<8, 4>` is negative) (C67). `exp` with a fixed point exponent takes the integer part of the base
  instead of the exponent (read). `simd_floor` does not compile (`typederf`, read).
* POWER `shra` of unsigned types shifts arithmetically (C57); POWER `gather` of f16 gives every lane the
  element of lane 0's offset (C60). POWER `reverse` of f16 keeps the order of its two registers (C54); POWER `subs` of
  i64 calls the scalar operator and inherits its overflow (C82).
* `mask_for_loop_tail` of i8 on SVE registers of more than 1024 bits enables lanes beyond the end (C55).
* ARM `addv` of f16 with NSIMD_ARM_FP16 counts lanes 0, 3, 4, 7 twice and loses the others (C61).
* ARM, read only: `emulate_op1` on SVE calls the undefined
  `simd_len_`; masked operators and `set1l` on SVE use predicates even with `sve_emulate_bool`; `reverse` of f16
  on AArch64 uses `.v0`/`.v1` even with NSIMD_ARM_FP16; 64-bit `mul` on NEON and 64-bit `neg`, `abs` on neon128 have the
  undefined overflow of the scalar operator while the native ones wrap (proved, C73); the NEON f16 `round` formats a dictionary into an intrinsic name.
* x86: on 32-bit builds the operators emulated through scalar code store with aligned instructions into local
  arrays without alignment (platform_x86.py:596) (C64). Emulated products of i32/i64 have the undefined
  signed overflow of the scalar operator, the native ones wrap (C64).
* Read only: `vstore2/3/4` macros are broken; `reverse` is never generated and its CPU body is wrong;
  `_mm256_castsi256_epi32` does not exist (unreachable); `compute_total_num_threads` is defined nowhere.
* x86 `cvt` of f32 to i32 (and of f32 to u32, f64 to 64-bit integers on AVX-512) rounds to nearest while scalar and
  CPU truncate: 1.5 becomes 2. `upcvt` of f32 to i64 or u64 goes through 32 bits: every value from 2^31 on
  becomes -2^31. AVX-512 `downcvt` of i64 to f32 goes through i32: 2^32 + v becomes v (C68).
* x86 `reverse` of f16 reverses each of the two registers without exchanging them; f64 on AVX-512 emits
  `_mm512_permute_mm512_set_epi64(...), in0)`, which is not C (read); 8-bit `reverse` on AVX-512 passes integer vectors
  to `_mm512_insertf64x4` (read) (C77).
* `subs` of i8 and i16 with the smallest subtrahend differs between the scalar and CPU back ends (wraps) and x86
  (saturates), in every such lane (C80).
* NEON `downcvt` of i64, u64 to f32 rounds to f64 first: 2^62 + 2^38 + 1 and 2^62 + 2^38 - 1 give the same float
  (C84).
* Fixed point `equal_ulp` drops the fractional bits before it counts units: with rt > 0, 0 and (2^rt - 1) / 2^rt are equal
  at 0 ulp; it wraps in 8 and 16 bits (127 and -128 are 1 ulp apart) and overflows in 32 and 64 bits (C93).
* Fixed point headers that cannot compile (read, not modelled): vector/add.hpp uses a type that is commented out, cos.hpp
  includes a file that does not exist, sin.hpp calls `safe_cos` which is not declared, simd/floor.hpp says `typederf`.
* POWER `downcvt` of f32 or i32 to f16 keeps the f32 lanes until they are stored: `upcvt(downcvt(2049))` is 2049,
  not a number of f16 (C85). The ARM code without half precision instructions and x86 without F16C do the same.
* f16 `fma`, `fms`, `fnma`, `fnms` compute in f32 and round twice: (1 + 2^-10) * (2^-11 - 2^-21) + (1 + 2^-10) gives
  1 + 2^-9 instead of 1 + 2^-10. On the CPU back end `a * b + c` on f16 vectors is not rounded to f16 in between, so that
  it differs from the scalar operators: 2^-20 against 0 for a = b = 1 + 2^-10, c = -(1 + 2^-9) (C87).
* Scalar `abs` of f32 and f64 is `a >= 0 ? a : -a`: it returns -0 for -0 and sets the sign of a NaN that had it clear
  (C88, `abs_sign`). `min` and `max` are not commutative on NaN and on zeros of different signs (C88, `min_fl`).
* x86 `abs` clears the sign of -0 and of a NaN where scalar `abs` sets it (C89, `abs_scalar`). Without NSIMD_FMA the SSE and
  AVX `fma`, `fms`, `fnma`, `fnms` round twice, while the C99 scalar operators are fused (C89, `fma_lane`).
* ARM vectors and scalars disagree on special data (C90): `min(NaN, 1)` is a NaN, the scalar operator returns 1;
  `min(-0, 0)` is -0 against 0; on ARMv7 vectors of f32 take subnormals as zero, so that `2^-149 > 0` is false, and
  their multiply-add is rounded twice even where the scalar one is fused.
* POWER `fnma` and `fnms` negate after rounding: `-(1 * 1) + 1` is -0, the scalar operators return +0; `min` and `max`
  treat NaN differently on VMX, VSX and scalars: `min(1, NaN)` is NaN, 1 and NaN (C91).
* `fmod` overflows for large quotients (C94): with `|x| >= 2^1025 |y|` (f32: `2^129 |y|`) the first quotient is
  infinite, and with a subnormal `y` and `|x| >= 2^970` (f32: `2^103`) the scaled numerator is; the code then multiplies
  infinities and gives NaN where C demands a number. `ptrunc` of f64 converts numbers to `int32_t` that do not fit when
  the quotient is at least `2^62`, which is undefined in C; the value is discarded.
* `remainder` overflows for large quotients (C95): with `|x| >= 2^1025 |y|` (f32: `2^129 |y|`) the first product with
  the reciprocal is infinite.
* `exp_u10` of f64 returns infinity for arguments between 709.78271114955743 and 709.78271289338397, where the exponential is
  finite: about 1.5 * 10^7 numbers (C98, `xexp_over_early`).
* `cosh_u35` returns infinity for 709 < |x| < 710.47 (f32: 88 < |x| < 89.41), where the hyperbolic cosine is finite (C102,
  `xcosh35_710`).
* The scalar `exp`, `exp2`, `exp10` convert their reduced argument to `int` before they test for large arguments: infinities,
  NaN and numbers from about 2^31 on are undefined in C (C101).
* (read) The SLEEF sources say that they need `-ffp-contract=off`; the build files do not pass it. The theorems about
  SLEEF functions assume that no operation is contracted except where the source says so.
* (read) egg/platform_cpu.py:95-96 lacks a comma between `'max'` and `'notb'`, so neither function includes
  scalar_utilities.h on the CPU back end.
