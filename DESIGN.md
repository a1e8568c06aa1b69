# Formal model of google/jaxite in Lean 4

## Approach

* `/repo` is read as text only. Every Lean definition under `lean/Verif/Model` cites the file and lines it models and says where it
  simplifies.
* uint32 data of the CGGI package is `BitVec 32`; in the CKKS and EC packages machine words are `Nat` with an explicit reduction after each
  machine operation; Python integers are `Nat`/`Int`; arrays are lists or functions on `Fin n`; Python exceptions are `Except` values; loops
  are folds, structural recursion, or well-founded recursion for `while`.
* Random values (keys, masks, errors) are universally quantified arguments.
* Specifications are stated with Mathlib notions (polynomials modulo `X^N+1`, `ZMod`, `Nat`/`Int` arithmetic, `orderOf`,
  `WeierstrassCurve.Affine.Point`) and not with the model's helpers.
* Where the code violates a property, the violation is a theorem with a concrete witness, and the largest correct part that was found is
  a theorem with suffix `_partial` (list at the end).
* Layout: `Verif/Model/*` model of the code, `Verif/Lemmas/*` helper lemmas, `Verif/Props/*` property theorems `Cnn_*` each with an
  `example` showing that a concrete non-trivial case meets the hypotheses.
* `seeded/LOG.jsonl` records the wrong programs tried against the theorems.

## Trusted base

* The Lean 4.33.0 kernel. Every `Cnn_*` theorem depends on at most the axioms `propext`, `Classical.choice`, `Quot.sound` (checked with
  `#print axioms`). No axiom is added; no `sorry`, `admit`, `native_decide`, `bv_decide`, `unsafe`, `implemented_by`.
* The hand transcription of Python into Lean.
* Mathlib definitions that occur in statements.
* Cryptographic security and performance are outside the model.

### Assumptions about Python, NumPy, JAX

* `jaxite_cggi`/`jaxite_bool` run with 64-bit types disabled (32-bit lanes); `jaxite_ckks` and `jaxite_ec` with 64-bit types enabled. The flag is per process: C109 says what happens to the former when the latter are imported too.
* Integer arithmetic on arrays wraps; XLA shifts by at least the width give 0; integer matmul, einsum and convolution are exact modulo the
  accumulator width. NumPy `uint64` tables are exact; NumPy 2 raises `OverflowError` for out-of-range Python integers.
* Out-of-bounds gathers clamp, out-of-bounds scatters are dropped (JAX). One deviation: in `hmuxrot` with more than one decomposition part
  the model reports an index error where JAX would clamp.
* Broadcasting is modelled only where used; a width-1 operand that NumPy would broadcast silently is treated as an error.
* Float32 dot products used on TPU are exact when all partial sums stay below 2^24 (parameter `fdot` with the hypothesis `FloatDotExact`).
* Python integer true division is the correctly rounded double (`floorTrueDiv`); `math.log2` followed by ceil is exact for 32-bit moduli.
  In `jaxite_ec` the float quotient estimate and the float `log2` are parameters.
* gmpy2 integers are exact.
* `ckks/encode.py` computes in complex128 and float64. C68-C72 and the sessions use exact complex and real numbers, `np.round` is any
  function within 1/2 of its argument. C85 repeats encoding and decoding with rounded operations: assumed are the accuracy contract
  `Accurate` of the operations of numpy and Python (proved for binary64 with textbook complex products; the accuracy of `np.exp` stays an
  assumption) and the absence of overflow to infinity. The float `%` before the integer conversion is exact (C85_remainder).
* `pmap` and `vmap` are the map of the function. XLA/Pallas compilation, sharding, devices, donation and callbacks are not modelled. The
  Pallas kernels are modelled as their grid loops; the grid of 18 steps of the byte-expanded kernel is in `BatGrid`.

## What is modelled

| Lean file (`Verif/Model`) | Python | Coverage |
|---|---|---|
| TypeConverters, Lut, JaxiteBool | `jaxite_bool/{type_converters,lut,bool_encoding,jaxite_bool,bool_params}.py` | all functions except cloud-key file handling; the random samples are arguments |
| Session | `jaxite_bool/{jaxite_bool,bool_params}.py`, `jaxite_cggi/{parameters,random_source}.py` | key generation and encryption with random sources as state machines; both parameter sets. The normal samples are integers (the rounding of the Gaussian is inside the source) |
| TestUtils | `jaxite_cggi/test_utils.py` | the modulus-switch check and the decryption after the modulus switch |
| Encoding, Lwe, Arith, Decomposition | `jaxite_cggi/{encoding,lwe,decomposition}.py`, `matrix_utils.integer_div` | all functions |
| MatrixUtils, PolymulKernel | `jaxite_cggi/{matrix_utils,polymul_kernel}.py` | the arithmetic functions used by the scheme, every branch |
| MatrixBat | `jaxite_cggi/matrix_utils.py` L204-640 | all functions, with 64-bit types enabled |
| Rlwe, Bootstrap | `jaxite_cggi/{rlwe,rgsw,key_switch,bootstrap,test_polynomial}.py` | all functions |
| Helpers | `jaxite_cggi/{jax_helpers,random_source}.py` | `batch_vmap` for arrays (no pytrees, no axis moves); the shape and range logic of random sources |
| Barrett, BitReversal, CkksMath, NttCpu, RnsNtt, NttBat, Crt, Bat | `jaxite_ckks/{barrett,add,math,rns_utils,ntt_cpu,rns,ntt,bat_utils,basis_conversion}.py`, centred lift of `encode.py` | all functions except array conversions of `rns.py` and `to_bat` wrappers |
| Encode | `jaxite_ckks/encode.py` | all functions, over exact complex numbers |
| Rescale, CkksKeys, Automorphism, CkksMul, CkksRotate | `jaxite_ckks/{rescale,key_gen,encrypt,random,types,mul,key_switching,conjugate,blind_rotate,blind_rotate_utils}.py` | on elements with one limb per modulus (arrays: RescaleArr, CkksObj, CkksRotObj); samples are arguments |
| CkksSession, CkksCircuit | `jaxite_ckks/{random,key_gen,encrypt,blind_rotate_utils}.py` with a generator | the samplers, the randomised entry points, `gen_cm_keys`, `lift_ciphertext`; circuits of homomorphic operations |
| PyTree | pytree registration of all classes of `jaxite_ckks` | `tree_flatten`, `tree_unflatten`, constructors as attribute maps; `jax.tree_util` flatten, unflatten, map and the argument check of `jit` from their documentation; arrays opaque |
| EcChunks, EcField, EcRns | `jaxite_ec/{util,finite_field}.py`, `algorithm/{util,lazy_reduction,rns_mod_reduce}.py` | chunk arithmetic, Barrett, lazy reduction, RNS; one row (the batch axis is in EcBatch) |
| EcCurve, Pippenger | `jaxite_ec/{elliptic_curve,pippenger,pippenger_rns}.py`, `algorithm/elliptic_curve.py` | all formulas; MSM loops incl. signed, masked, indexed and parallel variants; not device placement |
| PippengerArr | `jaxite_ec/{pippenger,pippenger_rns}.py` with all axes | the algorithms as array programs (reshape, transpose, flip, gather, scatter, scan, fori_loop) with the default functions of the callers; not dtypes beyond the int32/uint32 conversion of indices |
| EcPoint | `jaxite_ec/algorithm/elliptic_curve.py` L22-738 as objects, `finite_field.py` L28-97 | `ECPoint` objects on a heap: sharing of lists and elements, copy, conversions, in-place statements; one field for all systems, element values in the field, no negative indices |
| EncodeFloat | `jaxite_ckks/encode.py` | all functions again, with every float64 and complex128 operation rounded; operations are parameters with an accuracy contract, binary64 is one instance; no infinities, NaN or signed zeros |
| RescaleArr | `jaxite_ckks/rescale.py` | the class on ciphertext objects: shapes, broadcasting, stacked and padded tables, sliced transform constants, in-place update; arrays without elements are refused at once |
| CkksFloat | calls of `encode.py`, `encrypt.py` and the operations in sequence | a session: encode and encrypt all inputs, encode plaintext operands, run a program, decrypt, decode; floating point as in EncodeFloat |
| Gadget | `jaxite_cggi/decomposition.py` | `gadget_matrix`, `inverse_gadget`; float32 sums exact, conversion to `uint32` a parameter |
| CkksObj | `jaxite_ckks/mul.py`, `add.py`, `encrypt.py` | `tensor_multiply`, `relinearize`, plaintext products, `AddModularSubtract.add`, `decrypt` on objects with shapes, broadcasting and clamped indices; kinds of shape exceptions not distinguished |
| RnsScript | `jaxite_ec/algorithm/rns_mod_reduce.py` | the functions and the script, with its assertions |
| MulKernels | `jaxite_ckks/mul.py`, `basis_conversion.py`, `ntt.py` | `Mul.__init__`, `precompute_constants`, `relinearize` with the sub-kernels as objects on a heap; arrays with different numbers of limbs are refused (no broadcasting of one limb) |
| BatchVmap | `jaxite_cggi/jax_helpers.py` | `batch_vmap`, `_tree_map_multi_output`, `_lax_map` on arrays of any rank and pytrees; `jax.vmap` along axis 0 and `lax.scan` without carry are trusted to map over rows |
| FloatDot | `jaxite_cggi/polymul_kernel.py` | `lax.dot` of `bfloat16` operands with `float32` result, for every order of accumulation; trusted: IEEE round to nearest even in every addition |
| BatGrid | `jaxite_cggi/polymul_kernel.py` | the grid of 18 steps of `negacyclic_vector_matrix_polymul_bat`, with uninitialised output memory |
| CkksRotObj | `jaxite_ckks/{key_switching,conjugate,blind_rotate}.py` on whole objects | arrays with shapes, broadcasting, clamped indices; kinds of shape exceptions not distinguished |
| LiftObj | `jaxite_ckks/blind_rotate_utils.py` `lift_ciphertext` on whole objects | arrays with shapes; a single limb broadcasts, also in `jnp.einsum`; kinds of shape exceptions not distinguished |
| RelinBatch | `jaxite_ckks/mul.py` `relinearize` on batches | leading axes as one flat index; shapes, broadcasts, reshapes and filled takes as in JAX |
| RlweRandom | `jaxite_cggi/{rlwe,rgsw,bootstrap,key_switch}.py`: the functions around the array functions, test sources of `random_source.py` | samples drawn from a state-passing source; `modulus_degree` is the degree of the data except for RGSW ciphertexts |
| RandomBounds | `jaxite_cggi/random_source.py`: bounds of the sources backed by Python's generator; sources of `jaxite_bool/bool_params.py` | the choices of `randint` are an input; the generator itself and the normal distribution are not modelled |
| Printing | `__str__`/`__repr__` of `jaxite_bool/lut.py`, `jaxite_cggi/{rlwe,rgsw}.py` | arrays are lists of natural numbers, strings are lists of characters |
| NttCpuCache | `jaxite_ckks/ntt_cpu.py` with `_PERM_CACHE`, whole RNS polynomials | nobody outside the module writes to the cached arrays |
| EcHelpers | `jaxite_ec/util.py`: `to_tuple`, `profile_jax_functions` | a profiler client; recursion limit; iterables other than sequences |
| X64 | the products of `matrix_utils.py` and their callers in `rlwe.py`, `rgsw.py`, `bootstrap.py`, with `jax_enable_x64` as an argument | insides of the pallas kernels, `use_bat` |
| X64Barrett, X64Matmul | `barrett.py`, `add.py` and the `hpmatmul` functions with `jax_enable_x64` as an argument | inputs wider than the accumulators |
| RnsJnp | `rns.py` `to_jnp_array`, `gen_rns_polynomial_from_jnp_array` | the library's treatment of integers that do not fit is a parameter |
| RnsProgram | programs over `RnsPolynomial` objects with in-place `to_ntt_form` and `to_coeffs_form` (`rns.py` L162-285) | two names for one object are one index |
| Device | `jax_helpers.get_tpu_version` and the two products that call it | the device kinds are inputs; `int` reads ASCII digits only |
| LazyMain | `jaxite_ec/algorithm/lazy_reduction.py`: lists of operands, `main` | the random draws are inputs |
| MsmObject | the MSM classes of `jaxite_ec/{pippenger,pippenger_rns}.py` | attributes and method calls as a state machine; functions compiled for the shapes of the object |
| EcBatch | `jaxite_ec/{finite_field,elliptic_curve,util}.py` with the batch axis | batched operations, stacked products, packs, batch-first variants, conversions of batches; not dtypes, not empty arrays |
| BigInteger | `jaxite_ec/algorithm/big_integer.py` | operand types and dispatch; `gmpy2` as the integers |
| FieldClasses | `jaxite_ec/algorithm/finite_field.py` | three field classes and the big-integer operations they use |

Not modelled: infinities and NaN in `ckks/encode.py`; profiling and serialisation helpers, messages printed or logged (other than C104); tests.

## Properties: what is modelled, how it is proved, what came out

### C01 Integers and bit slices convert back and forth without loss — proved

* Approach: Bits are `List Bool`, ints are `Nat`/`Int`; exceptions are `Except`. Round trip by induction on the width.
* Result: All bit lists, all integers, all widths; error branches characterised exactly.
* Theorems: `C01_read_value`, `C01_read_error_iff`, `C01_write_read`, `C01_write_digits`, `C01_read_write`, `C01_write_wraps`, `C01_u8`, `C01_read_u8_error_iff`

### C02 Byte lists survive the trip through encrypted-bit order — partial

* Approach: The mutable 8-slot buffer loop of `bit_slice_to_bytes` is a fold. Code violates the claim for bytes >= 128: negation witness + `_partial` theorem for bytes < 128 (all ASCII text).
* Result: The round trip is false for bytes >= 128 (proved by counterexample); the partial theorems cover the code points for which it holds, and what the code does for the rest.
* Theorems: `C02_bytes_counterexample`, `C02_bytes_negation`, `C02_bytes_roundtrip_partial`, `C02_bytes_actual`, `C02_text_roundtrip_partial`, `C02_text_rejected`

### C03 A look-up table built from a Boolean function is that function — proved

* Approach: Tables as `Nat` truth tables; `from_callable` as a fold; spec = `f (bits of x)`. `lut_by_name("cmux")` returns a 2-input table: negation witness.
* Result: Every callable and every table; lut_by_name('cmux') returning a two-input table is recorded as a separate theorem.
* Theorems: `C03_from_callable`, `C03_from_callable_injective`, `C03_truth_table_bits`, `C03_named_gates`, `C03_cmux_table`, `C03_unknown_name`, `C03_padded`, `C03_cmux_by_name_truncated`

### C04 The LUT cache never returns the table of another function — proved

* Approach: Cache = association map; invariant by induction over query histories.
* Result: Every sequence of cache operations.
* Theorems: `C04_cache_transparent`

### C05 Encoding then adding noise then decoding returns the message — proved

* Approach: `BitVec 32`/`Nat` arithmetic with explicit total length; noise as an `Int`.
* Result: Every message, parameter set, and error; bound shown tight.
* Theorems: `C05_decode_any`, `C05_roundtrip`, `C05_bound_tight`

### C06 Encoding rejects what does not fit — proved

* Approach: Error branches of `__post_init__` and `encode` as `Except`; iff characterisations.
* Result: Plus the off-by-one of the documented bound as a separate theorem.
* Theorems: `C06_params`, `C06_encode`, `C06_test_polynomial_bound_off_by_one`

### C07 extract_noise returns the noise that was added — partial

* Approach: Model int32 casts by `BitVec.toInt`. Code violates at the wrap: negation + `_partial` with the exact side condition.
* Result: Violated by the code (negation proved); partial theorem covers the values for which it holds.
* Theorems: `C07_negation`, `C07_negation_message`, `C07_extract_noise_partial`

### C08 LWE decryption inverts encryption under bounded noise — proved

* Approach: Vectors over `BitVec 32`, key 0/1; phase equation in the ring.
* Theorems: `C08_phase`, `C08_decrypt`, `C08_noiseless`, `C08_bool_decrypt_any`, `C08_bool_decrypt`, `C08_bool_roundtrip`

### C09 LWE ciphertexts are additively homomorphic — proved

* Approach: Same model; linearity of the phase.
* Theorems: `C09_linear`, `C09_constant`, `C09_not`, `C09_not_decrypts`

### C10 Modulus switching adds at most half a unit per entry — proved

* Approach: `Int` error terms; sum bound over the vector.
* Theorems: `C10_switch_modulus`

### C11 integer_div is exact rounded division without overflow — proved

* Approach: `BitVec 32` model of each uint32 op; equality with the `Nat` formula.
* Result: For divisors up to 2^31; failure above is a separate theorem.
* Theorems: `C11_integer_div`, `C11_large_divisor_overflow`, `C11_nearest`

### C12 Unsigned gadget decomposition recomposes to the rounded value — proved

* Approach: Digits by shifts and masks; induction on the number of levels.
* Theorems: `C12_digits`, `C12_recompose`, `C12_exact`, `C12_summands`

### C13 Signed gadget decomposition recomposes within the truncation error and has small digits — partial

* Approach: Carry loop as structural recursion; invariant on partial sums. The documented digit range is violated (digit = B): negation + true range theorem.
* Result: Recomposition and truncation bound proved in full; the documented digit range is false (negation proved), the true range is C13_range_partial.
* Theorems: `C13_recompose`, `C13_exact`, `C13_range_partial`, `C13_range_negation`, `C13_truncation_not_half`, `C13_base_must_divide`

### C14 Toeplitz polynomial multiplication is multiplication mod X^N+1 — proved

* Approach: Vectors `Fin N -> R`; spec is divisibility of `P*Q-R` by `X^N+1` in `Polynomial R`.
* Result: All branches of poly_mul / poly_dot_product / vector-matrix kernels, against Polynomial.modByMonic; TPU float branch under the stated magnitude condition (exactness of float32 dot below 2^24 is an assumption on the parameter fdot).
* Theorems: `C14_toeplitz`, `C14_poly_mul`, `C14_coefficients`, `C14_poly_dot_product`, `C14_vector_matrix`, `C14_vector_matrix_bat`

### C15 Byte-split matrix products equal the 32-bit product — proved

* Approach: Byte decomposition sums modulo 2^32; f32 accumulate modelled by exactness condition (all partial sums < 2^24).
* Result: Integer products modulo 2^32 (2^64 for hpmatmul, with 64-bit types enabled, see C111), for every shape, with the accumulator bounds stated.
* Theorems: `C15_i32_as_u8_matmul`, `C15_hpmatmul_outer`, `C15_hpmatmul_conv`, `C15_i32_matmul`, `C15_bat_matmul`

### C16 monomial_mul multiplies by X^k in the negacyclic ring for every k — proved

* Approach: Model of roll/where/sign logic; spec as C14 with `X^k`.
* Result: Every integer exponent, negative wrapped exponents, period, smaller moduli, scale_by_x_power_n_minus_1 and x_power_n_minus_1.
* Theorems: `C16_monomial_mul`, `C16_monomial_mul_log`, `C16_negative`, `C16_period`, `C16_scale`, `C16_x_power_n_minus_1`

### C17 RLWE decryption inverts encryption coefficient-wise — proved

* Approach: Ring identity in the quotient ring.
* Result: All dimensions, degrees, keys, mask and error polynomials; the decrypt step for any encoding parameters.
* Theorems: `C17_phase`, `C17_decrypt_any`, `C17_decrypt`, `C17_linear`

### C18 Sample extraction returns an LWE encryption of the constant coefficient — proved

* Approach: Index computation of sample extraction; equality of sums.
* Result: Sample extraction at index 0, as in the code.
* Theorems: `C18_sample_extract`, `C18_encrypt`

### C19 Key switching preserves the phase up to an explicit error — proved

* Approach: As C13 + linearity; explicit error identity and `Int` bound.
* Result: Exact phase formula and worst-case bound for any decomposition with base*levels at most 32.
* Theorems: `C19_exact`, `C19_bound`

### C20 External product multiplies phases up to an explicit error — proved

* Approach: Row structure of RGSW; identity in the quotient ring; error term explicit.
* Result: External product: exact phase formula and worst-case noise bound, with and without byte-decomposed keys.
* Theorems: `C20_rows`, `C20_exact`, `C20_bound`, `C20_decrypt`

### C21 CMUX selects — proved

* Approach: Uses C20; error branches as values.
* Result: CMUX selects; useBat/level mismatches rejected.
* Theorems: `C21_select`, `C21_rejects`

### C22 Blind rotation rotates by the phase of the LWE ciphertext — proved

* Approach: Loop as a fold over key bits; invariant by induction; both variants.
* Result: Blind rotation for both key layouts (plain and pairwise/BMMP), any dimension.
* Theorems: `C22_odd_dimension`, `C22_blind_rotate`

### C23 The test polynomial looks up the right cleartext for every phase in a slot — proved

* Approach: Padding/roll/negate of the table as index functions; slot lemma.
* Result: All tables, all phases within the error margin.
* Theorems: `C23_accepts`, `C23_lookup`, `C23_identity`, `C23_trivial`

### C24 Bootstrapping evaluates the table and resets the noise — proved

* Approach: Composition of C10, C22, C18, C19 and C23 with the accumulated error as explicit hypothesis; satisfiable by an example.
* Result: Worst-case noise bound; for the test parameters it is small enough for the conclusion to be useful, for the production parameters the worst-case bound exceeds the decoding margin (security relies on average-case noise), so C24_decrypts is stated conditionally on the bound.
* Theorems: `C24_bootstrap`, `C24_decrypts`

### C25 Every Boolean gate computes its truth table on ciphertexts — proved

* Approach: C24 + truth tables.
* Result: Every circuit of gates, LUTs and cmux; worst-case noise hypothesis (shown satisfiable for the test parameters); pmap variants equal the map of the single call.
* Theorems: `C25_table_lookup`, `C25_circuit`, `C25_circuit_decrypts`, `C25_pmap`, `C25_lut1`

### C26 batch_vmap equals vmap for every batch size — proved

* Approach: Lists; chunk/concat.
* Result: Arrays along the mapped axis; pytrees are in C92, moves of the axis are not modelled.
* Theorems: `C26_batch_vmap`, `C26_rejects`

### C27 Random-source helpers produce values in range and the requested shape — proved

* Approach: Shape generator as recursion on dimensions.
* Result:  C27_digits: they are the binary digits of the value, leading digit first.
* Theorems: `C27_shape_generator`, `C27_normalize`, `C27_digits`, `C27_cycle`, `C27_cycle_noise`

### C28 Barrett reduction returns the remainder — partial

* Approach: Python true division is modelled as rounding to 53 bits (`floorTrueDiv`); all 64-bit wrap-arounds explicit. Theorem for every modulus whose constant is exact; negation witness otherwise.
* Result: Proved: the reduction is exact for z < 2^(2*clog m) with moduli whose double-precision reciprocal is exact, for all moduli up to 2^26, and for moduli where the quotient fits 53 bits. Disproved in general (C28_violated, prime 536903681): the double-precision true division rounds the Barrett constant up and the result wraps.
* Theorems: `C28_reduction_partial`, `C28_small_moduli_partial`, `C28_below_2_53_partial`, `C28_violated`

### C29 Ciphertext addition kernels agree with addition mod q — proved

* Approach: Direct.
* Result: Both modular additions return the canonical sum for reduced inputs; agreement of the variants; witness that unreduced inputs break the single-subtraction variant.
* Theorems: `C29_barrett`, `C29_subtract`, `C29_agree`, `C29_unreduced`, `C29_simple_words`

### C30 Bit reversal is an involution and a permutation — proved

* Approach: Bit reversal as in code (loop); involution by induction.
* Theorems: `C30_bits`, `C30_involution`, `C30_complement`, `C30_array`, `C30_array_perm`, `C30_perm`

### C31 The CPU NTT is evaluation at odd powers of psi and inverts exactly — proved

* Approach: Model over `ZMod q`/commutative ring with root psi; geometric-sum orthogonality.
* Result: Evaluation at the odd powers of psi, both inverse directions, negacyclic product, and the _poly variants with bit-reversed order.
* Theorems: `C31_forward`, `C31_inverse_left`, `C31_inverse_right`, `C31_product`, `C31_poly`

### C32 The iterative RNS NTT is inverse-consistent and multiplicative — proved

* Approach: Butterfly loops as recursion; evaluation-invariant.
* Result: In-place list loops with the running index; both inverse directions as list equalities, evaluation at odd powers in bit-reversed order, negacyclic product; n = 1 is rejected by the constructor (IndexError).
* Theorems: `C32_constructor`, `C32_forward`, `C32_inverse_left`, `C32_inverse_right`, `C32_product`

### C33 The four-step TPU NTT equals the CPU NTT — proved

* Approach: Index algebra of the four-step algorithm over the byte-matrix product of C37; refinement to the reference transform of C31.
* Result: For every power-of-two grid and prime modulus with exact reciprocal the four-step transform equals the reference transform in row-major order, and ntt/intt invert each other, for all 32-bit inputs. FourStep records the size limits under which the 32-bit accumulators and Barrett range suffice. C32 relates the in-place transform to the same evaluation.
* Theorems: `C33_forward`, `C33_inverse_left`, `C33_inverse_right`

### C34 root_of_unity returns a primitive root of the requested order — proved

* Approach: Fuelled loops; order characterisation with Mathlib `orderOf`. Non-termination on 0 recorded.
* Result: root_of_unity / primitive_root; includes rejection cases (m = 1 raises IndexError-like failure).
* Theorems: `C34_prime_factors`, `C34_generator`, `C34_root_of_unity`, `C34_rejects`, `C34_mod_exp`, `C34_primitive_root`, `C34_primitive_root_rejects`

### C35 CRT reconstruction inverts the residue map — proved

* Approach: Nat arithmetic; CRT uniqueness.
* Result: Arbitrary lists of pairwise coprime positive moduli; both packages.
* Theorems: `C35_reconstruct`, `C35_roundtrip`, `C35_rejects`, `C35_rows`, `C35_ec_rejects`, `C35_ec_reconstruct`, `C35_ec_roundtrip`

### C36 Approximate basis conversion is off by a small multiple of Q — proved

* Approach: Integer identity sum = x + uQ.
* Result: For moduli with exact double-precision reciprocal (GoodModulus, see C28) below 2^31 and 1020 * limbs <= 2^ceil(log2 p).
* Theorems: `C36_tables`, `C36_basis_change`

### C37 The basis-aligned byte transformation computes matrix products mod q — proved

* Approach: Byte expansion sums; Nat bounds.
* Result: Inner dimension bounded by K*4*255^2 < 2^32 (uint32 accumulator); the reduced form needs 1020*K <= 2^ceil(log2 q).
* Theorems: `C37_congruent`, `C37_merged`, `C37_reduced`

### C38 Rescaling divides by the dropped modulus with rounding — partial

* Approach: Model with u64 wrap; negation witness when q_L > 2 q_i, `_partial` theorem otherwise.
* Result: Rescaling is exactly divide-and-round on every chain whose dropped modulus is at most 2q_i+1; C38_rescale_wraps shows that beyond this bound a signed intermediate wraps and the result is wrong (defect in rescale.py).
* Theorems: `C38_rescale_partial`, `C38_rescale_wraps`, `C38_rejects`

### C39 CKKS encryption then decryption returns message plus the documented noise — proved

* Approach: Evaluation-domain identity per limb + NTT round trip.
* Result: For every chain of distinct transform primes below 2^31 and every mask, secret and noise, decrypt(encrypt(m)) equals m plus the stated noise combination in every slot; zero noise is exact; the rejected inputs are stated.
* Theorems: `C39_decrypt_encrypt`, `C39_zero_noise`, `C39_rejects`

### C40 Key-switching keys encrypt the scaled source key parts — proved

* Approach: Partition arithmetic + identity.
* Result: Key-switching keys hold P times the source key on the limbs of their part and zero elsewhere, for every dnum, mask and noise; evaluation and conjugation keys are instances; the sign loss of extending a non-binary secret is stated as C40_extend_negative.
* Theorems: `C40_keygen_holds`, `C40_extend`, `C40_ksk`, `C40_parts`, `C40_evaluation_key`, `C40_conjugate_key`, `C40_rejects`, `C40_extend_negative`

### C41 Limb bookkeeping in Mul is a partition with a correct inverse permutation — proved

* Approach: List permutation lemmas.
* Result: For every partition of a chain the control indices select a partition of the limbs and restoring is the inverse permutation; malformed requests are rejected.
* Theorems: `C41_partition`, `C41_restore`, `C41_rejects`

### C42 NTT-domain automorphism is the ring automorphism X -> X^g — proved

* Approach: Evaluation points permuted; uint32 wrap modelled.
* Result: The slot permutation is the substitution X -> X^g for every odd g and every degree 2^k, against an abstract substitution specification.
* Theorems: `C42_automorphism`, `C42_subst_exists`, `C42_rejects`

### C43 Flipping the evaluation vector is complex conjugation — proved

* Approach: Bit-reversal complement lemma.
* Result: Reversing the slots is the substitution X -> X^(2N-1).
* Theorems: `C43_flip`, `C43_flip_is_inverse`, `C43_conjugate`

### C44 Ciphertext-ciphertext tensor product decrypts to the product — proved

* Approach: Barrett + bounds.
* Result: Tensor product, plaintext product and their ring semantics, for every reduced pair of ciphertexts over valid moduli. The unreduced uint32 kernel mul_simple is exact only below 2^32: C44_simple gives the exact condition and C44_simple_wraps a witness where it is wrong.
* Theorems: `C44_tensor`, `C44_tensor_decrypts`, `C44_plain`, `C44_rejects`, `C44_simple`, `C44_simple_wraps`

### C45 Key switching / relinearisation preserves the decryption up to explicit noise — proved

* Approach: Composition of C36, C40, C38.
* Result: Key switching and relinearisation are correct up to an explicitly bounded noise polynomial for every chain, every digit count and every reduced input; generated keys meet the hypotheses. A key with fewer parts than the kernel is not rejected: the last part is used again (JAX clamps the index), see C46_dnum_negation. C45_nothing_left: a composite degree of 0 drops all moduli and the kernel is refused. The kept moduli are stated without the slicing of the model (Dropped).
* Theorems: `C45_relinearize`, `C45_generated_evaluation_key`, `C45_multiply`, `C45_nothing_left`, `C45_rejects`, `C45_short_key`, `C45_generated_keys`, `C45_key_switch`

### C46 CKKS blind-rotation steps select and rotate by key bits — proved

* Approach: Loop invariants on exponent.
* Result: Conditional rotation, the whole mux blind rotation (any number of bits, by induction), key generation and the column method, up to explicitly bounded noise; one decomposition part (dnum = 1), as the rotation keys hold one part: C46_dnum_negation gives a kernel with dnum = 2, which precompute_constants accepts, and a noiseless rotation with a wrong result. Uses the rescaling theorem of C38, hence the same hypothesis on the sizes of consecutive moduli.
* Theorems: `C46_generated_key`, `C46_hmuxrot`, `C46_brot_mux`, `C46_generated_mux_keys`, `C46_brot_cm`, `C46_rejects`, `C46_dnum_negation`

### C47 Centred CRT lift in decoding returns the signed coefficient — proved

* Approach: Int arithmetic.
* Result: The division by the scale and the FFT are floating point and not part of this claim.
* Theorems: `C47_range`, `C47_roundtrip`

### C48 RNS polynomial arithmetic respects forms and rejects incompatible operands — proved

* Approach: State machine of forms.
* Result: Conversions, neg/add/sub/mul, generation and rejection. Row lengths are not checked by the code (C48_length_unchecked; higher coefficients are dropped, C48_long_lists); the other theorems assume well-formed rows. Whole programs with in-place changes of form: every object has the reduced coefficients of the ring element that the same statements compute (C48_program, C48_program_equal), and in coefficient form is what gen_rns_polynomial makes of the integer polynomial the statements compute with X^n = -1 (C48_program_integers); reconstruct_crt returns its coefficients modulo the product of different primes (C48_program_reconstruct), and a program raises exactly if an operand is missing or has the wrong form (C48_program_runs).
* Theorems: `C48_forms`, `C48_rejects`, `C48_mul_rejects_coefficient_form`, `C48_neg_add_sub`, `C48_mul`, `C48_gen`, `C48_program`, `C48_program_equal`, `C48_program_runs`, `C48_program_integers`, `C48_program_reconstruct`, `C48_length_unchecked`, `C48_long_lists`

### C49 Big integers survive chunking — proved

* Approach: Digits base 2^k.
* Result: int_to_array / array_to_int and the algorithm-package variants; uniqueness, round trip, rejection of over-wide and negative inputs.
* Theorems: `C49_round_trip`, `C49_rejects`, `C49_unsized`, `C49_inverse`, `C49_algorithm`

### C50 Carry propagation terminates and preserves the value — proved

* Approach: While loop with measure (well-founded recursion), value invariants mod B^n-1.
* Result: Termination and value of the carry while-loop for every chunk width and every vector; the carry that falls off the top is an end-around carry and is excluded by the value hypothesis.
* Theorems: `C50_value`, `C50_terminates`, `C50_end_around`, `C50_batch`, `C50_carry_add`

### C51 Chunked compare, add, subtract and conditional subtract are integer operations — partial

* Approach: Value semantics on top of C50; negation for the top-chunk 0xFFFF corner.
* Result: Comparison, both additions and the conditional subtractions are exact. sub_2u16 is off by one when the top chunk of the difference is 0xFFFF; C51_sub_false exhibits it and C51_sub_partial proves every other case.
* Theorems: `C51_compare`, `C51_add2`, `C51_add3`, `C51_sub_partial`, `C51_sub_off_by_one`, `C51_sub_false`, `C51_cond_sub_mod`, `C51_cond_sub`

### C52 Chunked multiplication is exact — proved

* Approach: Convolution sum bounds + C50.
* Result: Schoolbook convolution in 8-bit lanes, rechunking and the shifted product, for all chunk counts covered by the lane bound.
* Theorems: `C52_mul`, `C52_mul_u8`, `C52_mul_shift`

### C53 Barrett modular multiplication on chunks is exact for BLS12-377 — proved

* Approach: Barrett bound with concrete p and mu checked by `decide`/`norm_num` in the kernel.
* Result: Barrett reduction returns the canonical residue for every product of two reduced inputs.
* Theorems: `C53_constant`, `C53_reduction`, `C53_mod_mul`, `C53_mod_mul_field`

### C54 Lazy modular multiplication stays in range and is congruent — proved

* Approach: Matrix rows = 256^(48+i) mod p, bounds.
* Result: Lazy reduction is congruent and stays inside the 25-chunk format, closed under iteration. The host-side reference is congruent and below p 2^16 for every modulus of at most 251 bytes, on lists of operands up to and including the bound, and its self-test passes for every outcome of its random draws.
* Theorems: `C54_mod_mul_lazy`, `C54_chain`, `C54_reference`, `C54_batch`, `C54_main`

### C55 The three-fold RNS fold is a correct reduction — proved

* Approach: Nat bounds.
* Result: Moduli search, pairwise coprimality of the 50 generated moduli, fold reduction, foldAdd and RNS constants; the python conversion helpers are refined to the residue specification.
* Theorems: `C55_find_moduli`, `C55_moduli`, `C55_fold`, `C55_reference`, `C55_fold_vector`, `C55_add`, `C55_add_rejects`, `C55_constant`

### C56 RNS modular reduction by quotient estimation is correct — proved

* Approach: The float division is a parameter with a correct-rounding hypothesis; quotient estimation bound over the rationals.
* Result: The float quotient estimate is modelled with an arbitrary correctly-rounded float division; result independent of the rounding.
* Theorems: `C56_table`, `C56_reduction`, `C56_mod_mul`, `C56_mod_mul_field`, `C56_unique`

### C57 RNS negation represents the negative — partial

* Approach: Negation witness + `_partial` for nonzero limbs.
* Result: Violation: negation of a vector with a zero limb is wrong (C57_negate_false, C57_zero_check_false). The partial theorems need the relevant limbs nonzero.
* Theorems: `C57_negate_partial`, `C57_zero_check_partial`, `C57_negate_false`, `C57_zero_check_false`, `C57_products`, `C57_negate_zero`

### C58 XYZZ addition and doubling implement the elliptic-curve group law — partial

* Approach: Field identities linked to Mathlib `WeierstrassCurve.Affine` addition.
* Result: Formulas proved for all fields, short Weierstrass curves and representatives; Barrett and lazy array versions proved. point_add is wrong for inverse points and for equal points with different representatives (C58_point_add_exceptional). RNS doubling proved for x != 0. RNS addition is wrong when the first point has x = 0 (C58_rns_add_false) and also on ordinary points, 4G + 17G with unreduced but admissible coordinates (C58_rns_add_false_ordinary); proved for x != 0 under the proviso that the quotient estimate of its last product, which reduces a negative integer, is rounded up (C58_rns_add_partial).
* Theorems: `C58_rns_add_false_ordinary`, `C58_rns_double_partial`, `C58_rns_add_partial`, `C58_rns_add_false`, `C58_add`, `C58_double`, `C58_point_add_partial`, `C58_point_add_exceptional`, `C58_shift`, `C58_shift_odd`, `C58_convert_to_affine`, `C58_barrett_add`, `C58_barrett_double`, `C58_lazy_add`, `C58_lazy_double`

### C59 Twisted-Edwards addition is complete — partial

* Approach: Field identities; completeness with d non-square.
* Result: Complete on points of odd order for the reference class and the 25-chunk functions; false outside (C59_incomplete). The RNS addition and doubling are false in general (C59_rns_add_false within the prime-order subgroup, C59_rns_double_false for the neutral constant) and proved under explicit limb conditions.
* Theorems: `C59_constants`, `C59_add`, `C59_double`, `C59_double_eq_add`, `C59_zero`, `C59_shift`, `C59_faithful`, `C59_lazy_add`, `C59_lazy_double`, `C59_lazy_neg`, `C59_subgroup`, `C59_incomplete`, `C59_rns_add_partial`, `C59_rns_double_partial`, `C59_rns_add_false`, `C59_rns_double_false`

### C60 Pippenger over the twisted curve computes the multi-scalar product — proved

* Approach: The bucket, reduction and window loops as folds over lists of points; refinement to a sum in Mathlib's group of points on the Weierstrass curve through the Edwards map.
* Result: MSMPippengerTwisted and the signed variant over the 25-chunk lazy arithmetic, from integer coordinates to integer coordinates, for points of odd order, every slice length 1..32 and every parallel factor; C60_out_of_range: scalars outside the window range are silently reduced; C60_affine composes with twist and convert_to_affine. The residue-number-system (RNS) instance is covered by C60_rns_partial, for runs whose RNS operations all stay in the domain of C59_rns_*_partial (checked by an instrumented run); Props/PippengerRnsRun.lean shows such a run for the generator and the scalar 2^254 - 1 (253 doublings and 257 additions evaluated in the kernel).
* Theorems: `C60_twisted`, `C60_range`, `C60_out_of_range`, `C60_signed`, `C60_shapes`, `C60_affine`, `C60_rns_partial`

### C61 Pippenger over XYZZ computes the multi-scalar product — partial

* Approach: As C60 with a taint bit recording whether an exceptional case of the XYZZ formulas was hit; negation witnesses computed in the kernel.
* Result: C61_partial: correct whenever all used additions and doublings are in the domain of the XYZZ formulas and no window is empty. C61_empty_window, C61_small_scalars: the unrestricted claim is false; with an empty window the result has ZZ = 0 mod p and represents no point. C61_mask: masked and indexed accumulation agree. The same for pippenger_rns.MSMPippenger on residue vectors: C61_rns_partial (domains of the residue-vector formulas, which include that the last quotient estimate of each addition is rounded up), C61_rns_empty_window. A complete run inside the domains is in Props/PippengerRnsXyzzRun.lean.
* Theorems: `C61_rns_partial`, `C61_rns_empty_window`, `C61_partial`, `C61_mask`, `C61_empty_window`, `C61_small_scalars`

### C62 Signed slicing recodes the scalar exactly — proved

* Approach: Digit recurrences.
* Result: Unsigned and signed digit decompositions; C62_signed_one: slice length 1 accepts only the scalar 0.
* Theorems: `C62_unsigned`, `C62_signed`, `C62_signed_accepts`, `C62_signed_order`, `C62_signed_one`

### C63 Reference field classes (plain, Barrett, Montgomery) compute in GF(p) with canonical values — partial

* Approach: Negation for a+b = p; theorems otherwise.
* Result: Plain class correct (C63_plain). Barrett and Montgomery: results congruent to the mathematical result for all operands (C63_barrett, C63_mont); canonical except when a + b = p (C63_*_canonical_partial), where the addition returns p itself (C63_*_add_false). Division by zero silently returns 0 (C63_div_zero); Montgomery ** and unchecked operand forms are wrong (C63_pow, C63_mont_form); a BigInt prime without k raises TypeError (C63_bigint_prime).
* Theorems: `C63_plain_new`, `C63_plain`, `C63_plain_eq`, `C63_different_primes`, `C63_barrett_new`, `C63_barrett_reduction`, `C63_barrett`, `C63_barrett_canonical_partial`, `C63_barrett_add_false`, `C63_div_zero`, `C63_mont_new`, `C63_mont_reduction`, `C63_mont`, `C63_mont_canonical_partial`, `C63_mont_add_false`, `C63_mont_change`, `C63_mont_form`, `C63_pow`, `C63_mont_pow`, `C63_bigint_prime`

### C64 Pippenger zero flags agree with emptiness — proved

* Approach: Invariant over the scalar history, proved for the flag arrays at each step.
* Result: Bucket flags at every step, and flags of the running and window sums in the reduction.
* Theorems: `C64_bucket_flags`, `C64_shapes`, `C64_reduction_flags`

### C65 Twist and untwist are inverse maps between the two curve models — partial

* Approach: Field identities.
* Result: Round trip and curve membership proved; convert_to_affine of the neutral point returns (-1,0) and twist of a projective point with z != 1 is wrong (violations proved). C65_generate_exact and C65_int_coordinates_exact: exactly which points the two entry points accept; twist_int_coordinates turns a point without Edwards coordinates, such as (-1, 0), into the neutral element without an exception (C65_int_coordinates_loses).
* Theorems: `C65_twist`, `C65_twist_total`, `C65_twist_on_curve`, `C65_untwist`, `C65_untwist_twist`, `C65_generate_point`, `C65_twist_int_coordinates`, `C65_convert_to_affine`, `C65_convert_to_affine_neutral`, `C65_twist_projective_partial`, `C65_twist_projective_false`, `C65_generate_exact`, `C65_int_coordinates_exact`, `C65_int_coordinates_loses`

### C66 Projective addition and doubling implement the group law — partial

* Approach: Field identities.
* Result: Formulas proved; point_add is wrong for equal points with different representatives, and for inverse points the result is not flagged as zero (violations proved).
* Theorems: `C66_add_z2_eq_1`, `C66_double`, `C66_add`, `C66_add_exceptional`, `C66_point_add_partial`, `C66_point_add_same_false`, `C66_point_add_unflagged_false`, `C66_shift`, `C66_convert_to_affine`

### C67 copy(value) of the field classes yields an element with that value — partial

* Approach: Element objects with identity (a store of addresses), so that returning the same object is visible; one definition per class.
* Result: C67_copy_partial: correct for every nonzero value; C67_copy_zero: copy(0) returns the element itself in all classes.
* Theorems: `C67_copy_partial`, `C67_copy_zero`, `C67_range`

### C68 The special FFT of the CKKS encoder is the canonical embedding — proved

* Approach: The three loops over lists of complex numbers with roots of unity `exp(2 pi i/m)`; refinement to evaluation of a polynomial by induction over the butterfly stages.
* Result: Over exact complex numbers (the code uses complex128; floating-point error is outside the model).
* Theorems: `C68_forward`, `C68_inverse`, `C68_embedding`

### C69 encode and decode are inverse up to rounding — proved

* Approach: Exact reals; rounding is a parameter with error at most 1/2; centred lift from C47; error bound by the triangle inequality over N roots of modulus 1.
* Result: Exact real arithmetic; np.round is any function within 1/2. C69_excess_slots: a list longer than N/2 is not rejected as such by encode; the theorem states what happens.
* Theorems: `C69_encode`, `C69_decode`, `C69_roundtrip`, `C69_rejects`, `C69_excess_slots`

### C70 Encryption round trip in terms of slots — proved

* Approach: Composition of C39 and C69.
* Result: Composition of C69 and C39 with explicit noise bound.
* Theorems: `C70_end_to_end`

### C71 Ring operations act on slots componentwise — proved

* Approach: Specification of negacyclic product (`IsNegaMul`) and substitution (`IsSubst`) on coefficients; evaluation at the slot points.
* Result: Pure statement about the embedding proved in C68, used by C72.
* Theorems: `C71_product`, `C71_sum`, `C71_period`, `C71_rotate_left`, `C71_rotate_right`, `C71_conjugate`

### C72 Homomorphic operations act on slots — proved

* Approach: `Holds` relates a ciphertext to the integer polynomial it decrypts to; composition of C29, C38, C43, C44, C45, C46 with C69 and C71.
* Result: C72_decode, C72_encrypt, C72_add, C72_multiply, C72_plain, C72_rotate (generated key, one decomposition part), C72_conjugate (any valid key), C72_rescale. Moduli chains under the hypotheses of C38/C45/C46.
* Theorems: `C72_decode`, `C72_encrypt`, `C72_add`, `C72_multiply`, `C72_rotate`, `C72_conjugate`, `C72_plain`, `C72_rescale`

### C73 The basis-aligned byte matrix product computes modulo any 32-bit modulus — proved

* Approach: Columns as lists of chunks; the while loops with fuel, proved to end by a decreasing measure; the value of every column modulo q is invariant.
* Result: C73_dense, C73_matmul (up to 8256 columns, sharp by C73_overflow), C73_chunks, C73_rechunkify. Violations: C73_jax_double_counts (the _jax variant is wrong from x = 256 on), C73_wide_chunks (chunk widths 16 and 32 are cut to 8 bits). C73_jax_partial: the _jax variant is right for one-byte x.
* Theorems: `C73_chunks`, `C73_rechunkify`, `C73_dense`, `C73_matmul`, `C73_overflow`, `C73_jax_double_counts`, `C73_jax_partial`, `C73_wide_chunks`

### C74 A whole session of the Boolean API is correct for every behaviour of the random sources — proved

* Approach: The random sources are state machines passed through every step; keys and samples are drawn in program order. `SourceOk` bounds the normal samples; the gates are those of C01-C03, C24, C25.
* Result: C74_session is the general statement; C74_test_parameters instantiates it for get_params_for_test; C74_production_structure shows which conditions the 128-bit set meets (all structural ones) and which it does not (the worst-case noise bound); C74_sources shows that the shipped sources satisfy the assumption.
* Theorems: `C74_session`, `C74_test_parameters`, `C74_production_structure`, `C74_sources`

### C75 Parameters accepted by assert_safe_modulus_switch keep the message through the modulus switch — partial

* Approach: Composition of C10 (rounding error of the switch) and C05 (decoding margin); negation witness for the production parameters.
* Result: False: C75_guard_false has the production parameters pass the check and the message change from 0 to 6 without any noise (the check assumes the square root of the worst case). C75_modulus_switch_partial: the worst-case condition that does suffice. C75_guard: exactly which parameters the check accepts.
* Theorems: `C75_modulus_switch_partial`, `C75_guard`, `C75_guard_false`

### C76 The rows of an RGSW encryption carry independent noise per coefficient — partial

* Approach: The error array of `rgsw.encrypt` has one entry per row; the equations between public row, key and error are derived for all keys and masks; the candidate count is by invertibility of the mask modulo 2^32 and X^N+1. For dimension k the mask matrix is invertible when the parities of its coefficient sums have odd determinant. The masks without any odd determinant are counted by a homomorphism onto the parities, all of whose fibres have the same size.
* Result: False: one scalar error per row is broadcast over all coefficients (C76_independent_noise_false, C76_row_noise_partial), so differences of neighbouring coefficients are noise-free linear equations in the key (C76_exact_equations) and one public row with an odd mask determines the key up to 2(2B+1) candidates (C76_key_recovery, C76_bootstrapping_key); for every RLWE dimension k, production included, k rows whose mask parities have odd determinant leave 2(2B+1)^k candidates (C76_key_recovery_dimension, C76_bootstrapping_key_dimension), and the RLWE key determines the LWE key (C76_lwe_key_from_rlwe_key), so the bootstrapping key alone leaves that many candidates for the LWE key (C76_lwe_key_recovery); counted over all masks, the LWE key is among them for all but a fraction (1 - oddCount k / 2^(k^2))^E of the masks of E entries, (5/8)^1200 in production (C76_lwe_key_any_entry, C76_almost_all_masks).
* Theorems: `C76_lwe_key_any_entry`, `C76_almost_all_masks`, `C76_independent_noise_false`, `C76_row_noise_partial`, `C76_exact_equations`, `C76_key_from_rows`, `C76_key_recovery`, `C76_bootstrapping_key`, `C76_key_recovery_dimension`, `C76_bootstrapping_key_dimension`, `C76_lwe_key_from_rlwe_key`, `C76_lwe_key_recovery`

### C77 The CKKS samplers return well-formed samples with full support — partial

* Approach: The Python generator is a state machine with four methods; the samplers are folds over it. Support by induction over the draws; a scripted generator shows that every value occurs.
* Result: C77_samplers_partial gives the support of all four samplers, C77_independent that every Gaussian and uniform polynomial occurs, C77_rejects the raised errors. The ternary claim is false: C77_ternary_is_binary (gen_ternary_poly draws from [0, 1] and never returns -1).
* Theorems: `C77_samplers_partial`, `C77_rejects`, `C77_ternary_is_binary`, `C77_independent`

### C78 A CKKS session is correct for every behaviour of the random generator — proved

* Approach: Key generation and encryption thread the generator state in program order; composition with C72, C40, C45, C46; the lift is one basis conversion (C38) followed by the transform of C33.
* Result: C78_session, C78_keys, C78_cm_keys, C78_lift. The bound B on the normal samples and the ranges of choice/randrange/sample are the assumptions on the generator (RngOk), satisfied by an explicit generator.
* Theorems: `C78_session`, `C78_keys`, `C78_cm_keys`, `C78_lift`

### C79 Programs over the CKKS package compute on slots — proved

* Approach: Inductive programs; a budget (moduli, scale, magnitude, error, coefficient bound) is computed over the reals; one lemma per operation from C44-C46, C43, C72; induction over the program.
* Result: C79_circuit (induction over programs), C79_decode, C79_inputs, C79_keys. The bounds are worst case. Rotation keys use one decomposition part, as in the code.
* Theorems: `C79_circuit`, `C79_decode`, `C79_inputs`, `C79_keys`

### C80 CKKS objects survive the trip through JAX transformations — partial

* Approach: Python objects as attribute maps; tree_flatten/tree_unflatten of each class mirrored; jax flatten/unflatten recursive over lists, tuples and registered classes; induction over the nesting depth.
* Result: C80_tree_map, C80_round_trip, C80_faithful, C80_jit, C80_constructors for all registered classes and any nesting; C80_mul_injected for kernels with injected parts. False in two places: C80_placeholder_false (AddModularSubtract cannot be rebuilt from leaves that are not iterable) and C80_unregistered_false (types.EvaluationKeys, returned by key generation, is not registered). C80_mul_uninitialised: the documented loss of injected kernels. jax.tree_util itself is modelled from its documentation.
* Theorems: `C80_tree_map`, `C80_round_trip`, `C80_extra_leaves`, `C80_faithful`, `C80_jit`, `C80_mul_injected`, `C80_mul_uninitialised`, `C80_placeholder_false`, `C80_unregistered_false`, `C80_mul_evaluation_keys`, `C80_constructors`

### C81 An MSM object can be used again — partial

* Approach: Objects as state machines over method calls. Invariant by induction over the history: weighted bucket sums equal the sum of the multi-scalar products accumulated so far (twisted); buckets agree with those of a fresh object wherever the zero flag is clear (XYZZ), and the reduction reads only those.
* Result: C81_xyzz, C81_xyzz_runs: MSMPippenger meets the claim for every history and either point arithmetic, bit for bit. False for the twisted classes, whose initialize keeps the old buckets: C81_twisted_reuse_false, C81_signed_reuse_false. What they compute instead, for every history: C81_twisted_partial, C81_signed_partial (the sum over all accumulations since the object was created; the claim when there was one), and C81_twisted_runs, C81_signed_runs for complete runs.
* Theorems: `C81_twisted_partial`, `C81_signed_partial`, `C81_twisted_runs`, `C81_signed_runs`, `C81_xyzz`, `C81_xyzz_runs`, `C81_twisted_reuse_false`, `C81_signed_reuse_false`

### C82 Batched point operations act on each point, and batch conversions are faithful — proved

* Approach: Arrays with the batch axis written out, the carry loop running until the whole batch is free of carries. Each operation on `l.map f` is `l.map` of the row operation, since a row without carries is a fixed point of the loop; formulas by composition.
* Result: C82_lazy_twisted, C82_lazy_xyzz, C82_barrett_xyzz, C82_rns: pointwise, for arbitrary chunk contents. C82_batch_first, C82_mismatch. Conversions: C82_convert, C82_convert_rejects, C82_convert_rns; a negative coordinate becomes zero (C82_convert_negative). From integers to integers with the group law: C82_twisted_ints, C82_lazy_xyzz_ints, C82_barrett_xyzz_ints (the residue formulas are only partially correct for one point, C58 and C59).
* Theorems: `C82_lazy_twisted`, `C82_lazy_xyzz`, `C82_barrett_xyzz`, `C82_rns`, `C82_mismatch`, `C82_batch_first`, `C82_convert`, `C82_convert_rejects`, `C82_convert_negative`, `C82_convert_rns`, `C82_twisted_ints`, `C82_lazy_xyzz_ints`, `C82_barrett_xyzz_ints`

### C83 The array programs of the MSM classes compute the multi-scalar product — proved

* Approach: Arrays as nested lists in axis order. A pack of points is the list of its four projections, so each array operation commutes with each projection; the loops are simulations of the list algorithms (foldlM_sim) with the shape and chunk-length invariant; the packed point operations come from C82.
* Result: C83_twisted, C83_signed, C83_xyzz, C83_rns: the array programs equal the algorithms on lists of points, errors included. With C60: C83_twisted_sum, C83_signed_sum (integers in, integers out). MSMPippenger inherits the fault of C61: C83_xyzz_small_scalars. For residues the sum is proved for runs inside the domains of the negations only (C83_rns_sum_partial, as C60_rns_partial); a complete run inside them is in Props/PippengerRnsRun.lean. Likewise the XYZZ class on residues: C83_rns_xyzz_sum_partial, C83_rns_xyzz_small_scalars (ZZ = 0), run in Props/PippengerRnsXyzzRun.lean. C83_scan_loop, C83_mask: variants agree. C83_rejects. jax reports a reshape that does not fit with TypeError; the model uses ValueError for all shape errors.
* Theorems: `C83_twisted`, `C83_signed`, `C83_xyzz`, `C83_rns`, `C83_twisted_sum`, `C83_signed_sum`, `C83_xyzz_small_scalars`, `C83_rns_sum_partial`, `C83_rejects`, `C83_scan_loop`, `C83_mask`, `C83_rns_xyzz_sum_partial`, `C83_rns_xyzz_small_scalars`

### C84 Operations on point objects return new points and leave their operands alone — partial

* Approach: Heap of elements, lists and points with references; programs of statements that bind variables, catch exceptions and may change lists and elements in place. Specification: the same statements on values. Simulation relation (well-formed heap, lists of unflagged points not shared, heap only grows) kept by every statement without in-place change; a weaker invariant is kept by all statements.
* Result: Proved: a program without in-place statements that converts no flagged zero of the twisted class behaves as on values (C84_run_partial), such a statement changes no existing point in any reachable state (C84_frame_partial), item assignment and append stay local (C84_local, C84_independent), results of + and << consist of new elements (C84_new_elements), group meaning (C84_edwards_session, C84_edwards_affine), reference formulas (C84_xyzz, C84_projective). Violated by the code: copy shares the field elements, conversions hand out ff_one, << 0 returns the operand, convert_to_affine of the twisted zero fails and empties the list of the point and its copies, the affine class cannot add (C84_affine_raises), XYZZ.convert_from_affine yields five coordinates (C84_from_affine_unusable), converted twisted points are accepted by + and give wrong sums (C84_converted_operand).
* Theorems: `C84_run_partial`, `C84_frame_partial`, `C84_local`, `C84_independent`, `C84_new_elements`, `C84_xyzz`, `C84_projective`, `C84_edwards_session`, `C84_edwards_affine`, `C84_affine_coordinates`, `C84_affine_raises`, `C84_from_affine_unusable`, `C84_convert_twice`, `C84_copy_shares_elements`, `C84_conversion_shares_one`, `C84_shift_zero_alias`, `C84_convert_zero_destroys`, `C84_zero_copy_shares_list`, `C84_converted_operand`, `C84_zero_needs_twist_false`

### C85 Encoding and decoding in floating-point arithmetic lose no more than a stated amount of precision — proved

* Approach: The loops of encode.py with every operation replaced by one of a record of rounded operations. Each layer at most multiplies the size by 2g and adds (2g-2) times the size to twice the error, g = (1+u)(1+w)(1+rho); solved in closed form by induction on the layers. Contract proved for binary64; closed bound for doubles by elementary inequalities.
* Result: The floating-point operations are parameters with an accuracy contract; binary64 with round to nearest even and textbook complex products is shown to meet it (C85_binary64), the accuracy of np.exp is assumed. Infinities and NaN are not modelled: results beyond the largest double are kept as real numbers. C85_exact_bound_false is the negative result for the bound of C69.
* Theorems: `C85_binary64`, `C85_forward`, `C85_inverse`, `C85_encode`, `C85_decode`, `C85_roundtrip`, `C85_double`, `C85_remainder`, `C85_overflow`, `C85_zero_scale`, `C85_rejects`, `C85_exact_bound_false`

### C86 Rescaling a ciphertext object has the documented effect on every element, and objects of other moduli are refused — partial

* Approach: Arrays with three axes and JAX broadcasting, padded stacked constants and sliced transform constants as in the code; refinement to the one-element model of C38 by induction over the levels; exact acceptance condition from the broadcasting rule; negation by evaluation on small chains.
* Result: Partial because the code violates the refusal: moduli are never compared (C86_ignores_moduli) and objects with two limbs, or any number of limbs when the kernel has two moduli, are accepted (C86_accepts gives the exact condition, C86_foreign_wrong and C86_reuse_wrong concrete wrong results). The effect on matching objects is proved under the size restriction of C38 (C86_rescale, C86_split).
* Theorems: `C86_rescale`, `C86_accepts`, `C86_ignores_moduli`, `C86_reuse`, `C86_split`, `C86_rejects`, `C86_foreign_wrong`, `C86_reuse_wrong`

### C87 A whole CKKS session in double precision returns the slots of the program within a computable bound — proved

* Approach: Composition: the floating-point encoder and decoder of C85 around the circuits of C79 and the generator of C78, with a separate lemma for a decoding scale that differs from the scale of the ciphertext; closed forms of the bounds by real arithmetic.
* Result: C87_session is the whole session; C87_encode, C87_encrypt and C87_decode its parts; C87_double the closed form for doubles. The accuracy of the table of roots (numpy cos and sin) is a hypothesis; the keys must fit the program (Fits of C79).
* Theorems: `C87_encode`, `C87_encrypt`, `C87_decode`, `C87_session`, `C87_double`

### C88 The gadget matrix undoes inverse_gadget up to the omitted levels — partial

* Approach: Rational entries; Kronecker product and transpose as lists; refinement of the dot product to one sum per entry by induction over the blocks, then the digit sum of C12; the conversion to uint32 is a parameter.
* Result: Partial because the code violates it: with fewer levels than bits every entry is divided by 2^(total - levels*log_base) (C88_shrunk) and with half of the digits or less every vector comes back as zeros (C88_lost, C88_negation); negative entries never come back (C88_negative). With all levels it holds on [0, 1/2] (C88_exact_partial), and modulo 1 everywhere if the conversion to uint32 wraps (C88_torus). Sums of float32 products are exact in the model.
* Theorems: `C88_rejects`, `C88_digits`, `C88_value`, `C88_exact_partial`, `C88_shrunk`, `C88_lost`, `C88_negation`, `C88_negative`, `C88_torus`

### C89 Ciphertext objects that do not belong together are refused, the others are multiplied, added and decrypted correctly — partial

* Approach: Arrays of shape (elements, degree, limbs) with broadcasting and clamped indices; each operation is characterised by an iff (when it succeeds, and the value); the values refine the models of C42, C45 and C40.
* Result: Partial because the code violates the second half: tensor_multiply never reads the moduli of its second operand and the constants of the plaintext product may belong to other moduli (C89_negation), relinearize looks at no moduli at all and leaves out elements after the third (C89_relin_ignores), decrypt leaves out the third element of an unrelinearised product (C89_unrelinearized) and uses a single element twice (C89_decrypt_single). The first half is C89_tensor, C89_multiply_partial, C89_plain, C89_add, C89_decrypt; exactly what is accepted is stated by the _accepts theorems.
* Theorems: `C89_tensor`, `C89_tensor_accepts`, `C89_decrypt`, `C89_decrypt_single`, `C89_decrypt_accepts`, `C89_multiply_partial`, `C89_unrelinearized`, `C89_plain`, `C89_plain_accepts`, `C89_add`, `C89_add_accepts`, `C89_relin_ignores`, `C89_negation`, `C89_key_arrays`

### C90 The reference RNS modular multiplication is right for every draw of its random numbers — proved

* Approach: The other column order of the table gives the same rows as the model of C56 (refinement), the reconstruction is the inverse of the residues below M; the literal assertions are evaluated by the kernel.
* Result: C90_script for the script, C90_mod_reduce for the function with any target modulus. C90_import: after an import every call raises NameError, because moduli_precision is only defined by the script. The rounding of the division is a parameter with the accuracy of binary64.
* Theorems: `C90_mod_reduce`, `C90_import`, `C90_script`

### C91 A Mul kernel with injected or shared sub-kernels relinearises like a Mul kernel of its own — partial

* Approach: Heap of transform and basis-conversion objects; precompute_constants returns the heap also when it raises; frame lemma for every construction by cases, induction over the history, and equality of relinearize reading the heap with the model of C45.
* Result: Partial because the code violates the claim: constants found in an injected basis-conversion kernel are used whatever their moduli (C91_stale_negation; C91_bconv_kept in general), also those left by a construction that raised (C91_retry_negation); the constants of an injected ntt_current are overwritten by the next kernel that gets it (C91_overwritten_negation); a factory returning one object (C91_factory_negation). C91_session_partial proves the claim for every history under the condition that injected objects are uninitialised or prepared for the same moduli, transform kernels are distinct and not given to later kernels; C91_fresh is the case without injection.
* Theorems: `C91_session_partial`, `C91_fresh`, `C91_bconv_kept`, `C91_stale_negation`, `C91_overwritten_negation`, `C91_factory_negation`, `C91_retry_negation`

### C92 batch_vmap on arrays and pytrees is vmap, whatever the batch size — partial

* Approach: Arrays as shapes with entries by index, pytrees as structure and leaves, traced functions as a shape function and entries. One equivalence (batchVmap_iff): succeeds with R iff the axes fit, sizes agree, f accepts the parts, out_axes fits and R is the moved stack; from it all theorems. vmap and scan are one combinator.
* Result: Partial because the code violates the claim: with an in_axes shorter than the arguments the rest of them are not passed to f, with a longer one the rest of in_axes is ignored, and nothing is raised (C92_wrong_length, C92_length_negation). C92_vmap_partial proves the result in all other cases, C92_accepts that it succeeds in no further ones, C92_any_batch_size that the batch size makes no difference, C92_refuses that arguments without leaves and prefix trees, which jax.vmap takes, are refused. C92_common_axis, C92_no_axis: one int is that axis for every argument, None is refused.
* Theorems: `C92_vmap_partial`, `C92_accepts`, `C92_any_batch_size`, `C92_refuses`, `C92_wrong_length`, `C92_common_axis`, `C92_no_axis`, `C92_length_negation`

### C93 The modulus switch keeps the message for all but a computable small fraction of masks — proved

* Approach: No new model. The rounding error of the phase is exact (phaseErr); the rounded away bits of a uniform word are uniform on 2^g consecutive integers, whose centred exponential sum is a product of hyperbolic cosines, bounded by exp(t^2 (4^g-1)/24) by induction on g; product over the entries selected by the key; Chernoff bound by counting (Lemmas/UniformTail).
* Result: A counting statement over all masks, without measure theory: C93_fraction (message after the switch), C93_encrypt (fresh encryptions), C93_bootstrap (whole bootstrap; the noise bound of its output is still the worst case of C24), C93_guard (all parameters the check accepts), C93_production (numbers), C93_random_key and C93_random_key_production (keys and masks drawn together: less than one pair in a million). It covers the production parameters, for which the worst-case theorems C24 and C75 have no room.
* Theorems: `C93_fraction`, `C93_encrypt`, `C93_bootstrap`, `C93_guard`, `C93_random_key`, `C93_random_key_production`, `C93_production`

### C94 The TPU kernels give the exact product in whatever order the device accumulates — partial

* Approach: All operands are integers: floating point as integers rounded to 8 or 24 significant bits, nearest even. An order of accumulation is a tree; by induction over it every partial sum stays within 2^24, where rounding changes nothing.
* Result: Partial because the code violates the claim: the check on the base does not look at the degree. C94_check_insufficient: with degree 2048 and base 128 the result is wrong in every order of accumulation; C94_i32_matmul_259: inner dimension 259 is already too long for i32_matmul. Proved under N * 255 * D <= 2^24 (C94_exact, C94_vector_matrix), inner dimension at most 258 (C94_i32_matmul), and for sessions with the test parameters (C94_session). This discharges the hypothesis FloatDotExact, which the theorems about TPUs had before, for float32 accumulation with round to nearest.
* Theorems: `C94_exact`, `C94_vector_matrix`, `C94_i32_matmul`, `C94_i32_matmul_259`, `C94_session`, `C94_check_insufficient`, `C94_rounding`

### C95 The byte-expanded kernel is right for every number of rows — partial

* Approach: The grid as a list of steps folded over the allocated array; order of the steps, memory content and the behaviour outside the array are arguments.
* Result: Partial because the code violates the claim: the grid is the literal (18,). With more than 18 rows the blocks of the further rows are never written (C95_further_rows gives the result, C95_negation that it is wrong for some memory content). Proved for 18 rows (C95_18_rows), and for fewer when the steps outside the array do no harm, as with a clamped block index (C95_at_most_18_partial).
* Theorems: `C95_at_most_18_partial`, `C95_18_rows`, `C95_further_rows`, `C95_negation`

### C96 Ciphertexts hide the encrypted bits — proved

* Approach: The session functions run on a random source that reads its draws from a tape; expectation over independent draws; the game with q encryptions equals an attack on q LWE samples, and adding messages leaves uniform vectors uniform.
* Result: A reduction: the advantage against the library is at most the sum of the advantages against decisional LWE of two explicit attackers, which only add messages to the samples they get. Trusted: the draws are independent, masks uniform over all 32-bit words (the default bounds of both random sources), key and errors of an arbitrary distribution. The attacker does not see the bootstrapping key (see C76); the key switched from is fixed, not related to the key switched to. Hardness of LWE itself is not a theorem.
* Theorems: `C96_encrypt`, `C96_bound`, `C96_total`, `C96_uniform_errors`, `C96_switching_key`, `C96_switching_key_total`

### C97 CKKS ciphertexts hide the plaintexts — proved

* Approach: keygen and encrypt run on a generator that reads its draws from lists; the result is the textbook scheme over the product of the limb rings (through C39); hybrid argument over a finite ring.
* Result: A reduction to decisional ring LWE with the distributions of the code: the public key is replaced by a uniform pair, then one ciphertext after the other; the attacks are explicit (they run the encryption themselves). Plaintexts over all moduli of the key. Trusted: independent draws, uniform masks. Evaluation keys are not shown to the attacker (they encrypt functions of the secret key under itself). Ring-LWE hardness, and how the noise of the default sigma compares with it, is not a theorem.
* Theorems: `C97_encrypt`, `C97_encrypt_sparse`, `C97_view`, `C97_total`, `C97_masks`

### C98 The two secret keys of a client are independent — partial

* Approach: clientKeySet run on sources of explicit bits, and on two copies of an arbitrary generator in the same state.
* Result: Partial because the documented use violates the claim: with one seed for both sources, as in the README, the LWE key is the beginning of the flattened RLWE key for every generator and seed (C98_same_seed), so pairs of keys that independent draws give cannot occur (C98_same_seed_unreachable). With one object for both, or two that draw independently, the keys consist of exactly the drawn bits (C98_one_source_partial, C98_two_sources_partial). The generator of Python is a parameter.
* Theorems: `C98_one_source_partial`, `C98_two_sources_partial`, `C98_same_seed`, `C98_same_seed_unreachable`

### C99 Key switching, conjugation and blind rotation act on ciphertext objects as on the polynomials they hold — partial

* Approach: The array model run on objects that fit equals the element model of C43, C45 and C46, whose bounds are transported; exceptions by inverting the run.
* Result: Partial because the code violates the full claim: hmuxrot accepts a ciphertext over as many other moduli, and gives another number under the moduli of the kernel (C99_negation); key_switch reads the only element of a ciphertext of one element twice (C99_key_switch_ignores). For objects over the moduli of the kernel the calls succeed and represent the documented value (C99_key_switch_partial, C99_conjugate, C99_hmuxrot_partial, C99_brot_mux, C99_brot_cm); what is required of the shapes is C99_key_switch_requires, and calls before precompute_constants raise (C99_fresh). lift_ciphertext with any number of elements: C99_lift_partial, C99_lift_message_partial, what it requires: C99_lift_requires; it accepts transform kernels for other moduli, or for one modulus, and then gives another number (C99_lift_negation).
* Theorems: `C99_key_switch_partial`, `C99_conjugate`, `C99_hmuxrot_partial`, `C99_brot_mux`, `C99_brot_cm`, `C99_key_switch_requires`, `C99_fresh`, `C99_key_switch_ignores`, `C99_negation`, `C99_key_arrays`, `C99_brot_cm_requires`, `C99_lift_partial`, `C99_lift_message_partial`, `C99_lift_requires`, `C99_lift_negation`

### C100 Big integers compute as the integers they hold — partial

* Approach: Operands as a type with one case per class, NotImplemented as none and the dispatch of the interpreter explicit; integer arithmetic and the two's complement digits of land.
* Result: Partial because the code violates the full claim (C100_negation): an int on the left of an arithmetic operator raises, an mpz of the same value compares as different, and ceil_log2 raises for every number. Proved for all integers: the ring operations, division and remainder, &, shifts, powers and modular powers, comparisons with an int on either side, and the exceptions for other operands.
* Theorems: `C100_ring`, `C100_division`, `C100_and`, `C100_shift`, `C100_pow`, `C100_compare`, `C100_other`, `C100_negation`

### C101 A batch of products is relinearised entry by entry — partial

* Approach: Arrays with leading axes, reshapes, broadcasts, takes with fill and concatenations in the order of the code; each operation is shown to act entrywise on arrays that fit, and the composite is compared with the single ciphertext of C89.
* Result: Partial because the code violates the last clause: data of one limb is broadcast, missing limbs are filled with 2^32 - 1, and a wrong result is returned without an exception (C101_negation). Proved for every shape of the leading axes: entry by entry results (C101_entrywise_partial), the batch of products decrypts to the products (C101_products_partial), and what a successful call requires (C101_requires).
* Theorems: `C101_entrywise_partial`, `C101_products_partial`, `C101_requires`, `C101_negation`, `C101_limbs_refused`

### C102 The low-level TFHE functions are correct with fresh randomness, for every behaviour of the source — proved

* Approach: The wrappers with a state-passing random source; exact values of the samples from C27, then the array theorems C17, C19, C20 and C22, composed into whole programs ending in decrypt and decode.
* Result: Any stateful source; noise hypotheses are on the values actually drawn (round trips) or on a bound for all values (products, rotations, key switches). The single scalar noise of each RGSW row is visible in C102_rgsw_draws; its consequence is C76.
* Theorems: `C102_rlwe_draws`, `C102_rlwe_roundtrip`, `C102_test_sources`, `C102_rgsw_draws`, `C102_rgsw_roundtrip`, `C102_product`, `C102_blind_rotate`, `C102_switch_key`

### C103 Uniform samples, secret keys and masks are uniform — partial

* Approach: Python's randint is a choice among hi - lo + 1 equally likely values; the probability of a result is the number of choice sequences that give it, counted exactly (product of fibres of the reduction modulo 2^w).
* Result: Violated by get_rng_for_test: its inclusive upper bound is 2^32, so zero comes out twice as often as any other value (C103_test, C103_negation; it is used in tests only). Proved for the production sources and all sources with default bounds; C103_uniform and C103_uniform_only say exactly which bounds are right. C96 takes masks as uniform; C103 says which sources make them so.
* Theorems: `C103_uniform`, `C103_uniform_only`, `C103_production_partial`, `C103_secret`, `C103_test`, `C103_negation`, `C103_varying`, `C103_lwe_key`, `C103_mask`

### C104 Printed polynomials, ciphertexts and look-up tables show the object — proved

* Approach: Strings as lists of characters; unique decomposition at separators that occur in no piece, digits read back by a separate reader.
* Result: Coefficients are compared as polynomials (zeros at the end of the list are not printed). C104_table is for at least one input; the table with no inputs prints one line for the number 0.
* Theorems: `C104_polynomial`, `C104_polynomial_same`, `C104_ciphertext`, `C104_rgsw`, `C104_table`, `C104_table_injective`, `C104_repr`

### C105 Polynomial products do not depend on the device — partial

* Approach: The device kind is a list of characters; the version is characterised for every kind; the products reduce to C14 for every version.
* Result: False: a TPU whose kind is not "TPU v", one digit and perhaps " lite" raises AssertionError in every product, for example version 10 (C105_negation); C105_exact lists the device kinds that work, and on these all products agree (C105_products_partial, C105_vector_matrix_partial).
* Theorems: `C105_version_partial`, `C105_exact`, `C105_negation`, `C105_products_partial`, `C105_vector_matrix_partial`

### C106 The CPU transforms do not depend on earlier calls — proved

* Approach: The dictionary is the state of a monad in which exceptions keep the state; an invariant of the dictionary gives independence for every computation, compositionally; values by refinement to the model of C31.
* Result: C106_values is for degrees 2^k up to 2^32 (the permutation has dtype uint32); C106_invisible has no hypotheses.
* Theorems: `C106_invisible`, `C106_values`

### C107 to_tuple freezes nested constants without changing them — proved

* Approach: Induction over nested values; the specification looks up index paths and never mentions the recursion of the code.
* Result: Nesting beyond the recursion limit, dictionaries, sets and generators are not modelled.
* Theorems: `C107_hashable`, `C107_same`, `C107_accepts`, `C107_idempotent`

### C108 Profiling runs the tasks and returns — partial

* Approach: Tasks are functions on an arbitrary state with three kinds of outcome; the effect of the run is specified as a fold over the tasks.
* Result: False: the statement that binds `client` is in a comment of the published module, and the finally block reads it, so every call ends in a NameError, also in place of an interrupt (C108_negation). What holds: each task is run once, in order, up to the first exception, whose type and text are printed (the _partial theorems, which also say what happens if a caller sets `client` to None).
* Theorems: `C108_negation`, `C108_runs_partial`, `C108_first_exception_partial`, `C108_interrupt_partial`

### C109 The TFHE functions do not depend on what else the program imports — partial

* Approach: The products are modelled a second time with the flag as an argument and the width of each array explicit; a check that stands for tracing precedes the value. Truncation to 32 bits commutes with sums, products and shifts, which gives the equality with the 32-bit models.
* Result: False: with 64-bit types the sign matrix of toeplitz_poly_mul is int64, its entries have eight bytes and the shift by the 4x4 table cannot be broadcast, so on any device but a TPU of version 5 or later with a degree divisible by 128 every product, encryption, decryption, bootstrapping-key generation, external product and rotation step raises (C109_negation), and so do the encryption of a test polynomial, every blind rotation and every bootstrapping with any key (C109_bootstrap_negation), so no server key can be made, and a program over Boolean ciphertexts raises as soon as it has a gate of two or three inputs (C109_program_negation). On such a TPU the words of a bootstrapped ciphertext are uint64 and not reduced: a mask word that is not zero is at least 2^63 (C109_high_words). What holds: without the flag, or on such a TPU, the functions return the words of the 32-bit models (for a bootstrapping and a whole program: the low words, and the same decrypted bit, C109_program_same_partial; the server key is the same), and the low words of poly_mul are the product modulo X^n + 1 in both modes. The byte layout (use_bat) and the insides of the pallas kernels are taken from the 32-bit models. The behaviour of JAX that is used (promotion of int64 and uint32, an axis of eight after the bitcast, the broadcast error) is from its documentation.
* Theorems: `C109_flag`, `C109_negation`, `C109_same_partial`, `C109_product_partial`, `C109_bootstrap_negation`, `C109_bootstrap_same_partial`, `C109_high_words`, `C109_wide_same_partial`, `C109_decrypt_low`, `C109_program_same_partial`, `C109_server_key_same_partial`, `C109_program_negation`

### C110 Barrett reduction works with the modules it imports — partial

* Approach: The reduction modelled with the width of its words as an argument; in the narrow mode all shifts by 32 vanish.
* Result: False: the constants are uint64, but neither module enables 64-bit types. Without them, for every modulus from 2^15 to 2^31, the reduction is one conditional subtraction (C110_one_subtraction), right exactly for inputs below 2q (C110_right_iff); AddModularBarrett is right for sums from 2q up if and only if one of the five enabling modules has been imported (C110_negation). What holds: reduced inputs are right in both modes (C110_reduced_partial). Trusted: JAX stores uint64 as uint32 while the flag is off.
* Theorems: `C110_wide`, `C110_one_subtraction`, `C110_right_iff`, `C110_negation`, `C110_reduced_partial`

### C111 The hpmatmul products are exact — partial

* Approach: The three products with the width as an argument; truncation to 32 bits commutes with shifts and sums, and the wide products are C15 and C73.
* Result: False: the accumulators are converted to uint64, which is uint32 unless 64-bit types are on, and with 64-bit types on poly_mul of the same module raises outside a TPU v5+ (C109). C111_negation: in every process one of the two fails. Without the flag the products are cut to 32 bits (C111_low_words) and exact if and only if they fit (C111_exact_iff). What holds: with the flag the products are those of C15 and C73 (C111_wide_partial), without it the basis-aligned one is right when its sum fits 32 bits (C111_bat_partial).
* Theorems: `C111_wide_partial`, `C111_low_words`, `C111_exact_iff`, `C111_bat_partial`, `C111_negation`

### C112 An RNS polynomial survives the conversion to a JAX array and back — partial

* Approach: The conversion with the flag and the treatment of integers that do not fit as arguments; residues and row lengths are an invariant of all operations, by induction on how the polynomial was built.
* Result: False: to_jnp_array asks for uint64, but rns.py does not enable 64-bit types. C112_negation: while the flag is off, for every modulus above 2^32 and every degree the constant 2^32 is lost, whether the library wraps or raises. C112_round_trip_iff gives the exact condition. What holds: the round trip is the identity for every polynomial built by any sequence of operations over moduli that fit the stored word, 2^64 with the flag and 2^32 without (C112_built_partial). Trusted: JAX stores uint64 as uint32 while the flag is off; what happens to an integer that does not fit is a parameter.
* Theorems: `C112_round_trip_iff`, `C112_built_partial`, `C112_negation`

## Violations found in the code

Each line is a theorem with a concrete witness.

* C02 `bit_slice_to_bytes` does not return bytes >= 128 (`C02_bytes_negation`, `C02_bytes_counterexample`).
* C03 `lut_by_name("cmux")` returns a two-input table.
* C06 the documented bound of the test polynomial is off by one.
* C07 `extract_noise` wraps at the top of the range.
* C11 `integer_div` is wrong for divisors above 2^31.
* C13 the documented range of the signed digits is exceeded (a digit can equal the base).
* C28 the Barrett constant is rounded up by double-precision division for some 30-bit primes and the reduction wraps.
* C29 addition by a single subtraction is wrong for unreduced inputs.
* C34 `root_of_unity` fails for order 1.
* C38 rescaling wraps when the dropped modulus exceeds 2q_i+1.
* C40 extending a secret with negative entries loses the sign.
* C44 `mul_simple` overflows 32 bits.
* C45, C46 a key with fewer parts than the kernel is accepted and its last part used again. The rotation keys have one part, so `hmuxrot` with
  `dnum = 2` gives a wrong result without an error (`C46_dnum_negation`).
* C51 `sub_2u16` is off by one when the top chunk of the difference is 0xFFFF.
* C57 RNS negation and its zero check are wrong for a zero limb.
* C58, C66 XYZZ and projective `point_add` are wrong for inverse points and for equal points with different representatives.
* C58 `padd_rns_xyzz_pack` is wrong for a first point with `x = 0`; it also multiplies by a vector that stands for a negative
  integer and relies on the rounding of the quotient estimate to come out right. It is wrong on ordinary points too:
  `C58_rns_add_false_ordinary` adds 4G and 17G in a representative within the allowed range and gets a wrong Y.
* C59 the Edwards addition is incomplete outside the odd-order subgroup; the RNS versions fail even inside it.
* C60 scalars outside the window range are silently reduced.
* C61 an empty window makes the XYZZ result represent no point (on chunk arrays and on residue vectors).
* C62 slice length 1 in the signed recoding accepts only 0.
* C63 Barrett and Montgomery addition return p for a + b = p; division by zero returns 0; Montgomery `**` is wrong; mixing forms is
  unchecked; a BigInt prime without `k` raises TypeError.
* C65 `convert_to_affine` of the neutral point gives (-1, 0); `twist` of a projective point with z != 1 is wrong;
  `twist_int_coordinates` turns points without Edwards coordinates, such as (-1, 0), into the neutral element without an exception.
* C67 `copy` of zero returns the element itself.
* C69 `encode` does not reject more than N/2 slots; the excess is silently handled as `C69_excess_slots` states.
* C73 `smul_as_dense_gemv_bat_jax` counts the bottom block twice; chunk widths 16 and 32 are cut to 8 bits; more than 8256 columns
  overflow.
* C75 `assert_safe_modulus_switch` accepts parameters (the production ones) for which the rounding alone changes the message.
* C76 `rgsw.encrypt` and `gen_bootstrapping_key` draw one error per row and add it to every coefficient; the public bootstrapping key
  then determines the secret RLWE key up to 2(2B+1)^k candidates for RLWE dimension k and errors up to B, 42 for the test parameters with
  B = 10, about 5·10^7 in production with B = 2560 (ten standard deviations).
* C77 `gen_ternary_poly` draws from `[0, 1]`; the coefficient -1 never occurs.
* C80 `AddModularSubtract.tree_unflatten` iterates its child, so rebuilding from placeholder leaves (as `jax.vmap` does to check `in_axes`)
  raises. `types.EvaluationKeys` is not a registered pytree; `jit` rejects it. Its namesake in `mul.py` is registered.
* C81 `initialize` of `MSMPippengerTwisted` and `MSMPippengerTwistedSigned` does not reset `all_buckets`; a second run on the same object
  adds the earlier products to its result.
* C84 `ECPoint.copy` shares the field elements; `convert_to_affine` puts the system's own `ff_one` into its result; `p << 0` is `p`;
  `convert_to_affine` of the zero point of the twisted class raises ValueError and leaves the zero point and its copies without coordinates;
  `+` and `<<` of the affine class always raise; `XYZZ.convert_from_affine` returns five coordinates, which no operation accepts; points
  converted by the twisted class are accepted by `+`, with wrong sums; its `generate_point(None, zero=True)` needs `twist=False`.
* C86 `rescale` accepts ciphertexts of other moduli: a two-limb ciphertext with any kernel, any ciphertext with a two-modulus kernel (`C86_foreign_wrong`, `C86_reuse_wrong`); a second application of the same kernel goes unnoticed for three or two moduli.
* C88 `inverse_gadget` scales by `B^levels` but takes the digits of a `total_bit_length`-bit number: unless all levels are kept the result is
  too small by the factor `2^(total - levels*log_base)`, zero if at most half of the digits are kept. Negative entries never come back.
* C89 `Mul.tensor_multiply` does not read `ct2.moduli`: factors over other moduli, or over fewer of them if only one is left, give a
  wrong product with the moduli of the first. `MulPlaintextCiphertextBarrett.mul` compares the moduli of the operands with each other but
  not with its constants. `decrypt` drops the third element of a product that was not relinearised, and uses the only element of a
  one-element object twice; neither is reported.
* C90 `rns_mod_reduce` reads the global `moduli_precision`, which only the script defines: after an import every call raises `NameError`.
* C91 `Mul.precompute_constants` keeps the constants of an injected `bconv` if there are any, without comparing their moduli: a
  second kernel for other moduli given the same object (or a second attempt after an exception) relinearises wrongly without an
  exception. It overwrites the constants of an injected `ntt_current`, also if another kernel still uses them.
* C92 `batch_vmap` pairs arguments and `in_axes` with `zip`: arguments beyond the entries of `in_axes` are silently not passed to the
  function, where `jax.vmap` raises. An argument without leaves (`None`, `()`) and a prefix pytree in `in_axes` are refused, where
  `jax.vmap` takes them.
* C94 `negacyclic_vector_matrix_polymul` takes the fast path whenever `decomposition_log_base < 8`. Whether `float32` accumulation is
  exact depends on the degree too: with `N = 2048` and base 128 the sum of 2048 products can exceed `2^24`, and the result is then wrong
  in every order of accumulation.
* C95 `negacyclic_vector_matrix_polymul_bat` launches its kernel with the literal `grid=(18,)`. With more than 18 rows (three
  polynomials and eight levels make 24) the Toeplitz matrices of the further rows are uninitialised memory; with fewer (16 for the test
  parameters) there are steps outside the array.
* C98 The README makes `lwe_rng` and `rlwe_rng` with the same seed. Both draw their key first, so the LWE key (800 bits) is the
  beginning of the RLWE key (1024 bits), whatever the seed. The key-switching key then encrypts the bits of the key it is encrypted
  under, which the reduction of C96 does not cover. A secure seed, which the README asks for, does not help.
* C99 `hmuxrot` takes the moduli of the result from its constants and never compares them with those of the ciphertext. A ciphertext
  over the same moduli in another order is accepted and becomes another number, without an exception. `key_switch` of a ciphertext with
  one element uses this element for both components (an index beyond the end is clamped).
  `lift_ciphertext` accepts transform kernels for as many other moduli, or for a single modulus, and then lifts another number.
* C100 `GMPBigInteger` has no reflected arithmetic, so `2 * x` raises while `x * 2` works; `x == gmpy2.mpz(x)` is false; `ceil_log2` passes
  an `mpfr` to a constructor that accepts only integers, and raises for every number.
* C101 `relinearize` accepts data with one limb for a kernel of several moduli (and any number of limbs for a kernel of one): the transforms
  broadcast, `jnp.take` fills the missing limbs with `2^32 - 1`, and the result is not an encryption of the product.
* C103 `get_rng_for_test` passes the inclusive bounds `(0, 2**32)` to `randint`, so after reduction zero comes out twice as often as any
  other value. The production sources use `2**32 - 1`.
* C105 `get_tpu_version` raises AssertionError on TPUs whose kind has more than one character after "TPU v" (other than " lite"); every
  polynomial product then fails, although the general branch would compute it.
* C108 `profile_jax_functions` of `jaxite_ec/util.py` reads the name `client` in its finally block, but the statement that binds it is in a
  comment: every call raises `NameError`, after the tasks have run.
* C109 Importing `jaxite_ckks.ntt` (or `basis_conversion`, `bat_utils`) or `jaxite_ec.finite_field` (or `rns_mod_reduce`) enables 64-bit types for the
  process; from then on every TFHE polynomial product outside a TPU v5+ raises `TypeError`: the sign matrix has type `int`, and `int64` has eight bytes.
* C110 `barrett.py` and `add.py` need 64-bit types and do not enable them: used on their own, `AddModularBarrett` is wrong as soon as the sum reaches
  twice the modulus.
* C111 The `hpmatmul` functions of `matrix_utils.py` need 64-bit types, the polynomial products of the same file need them off.
* C112 `to_jnp_array` asks for `uint64` and `rns.py` does not enable 64-bit types: with a modulus above 2^32 coefficients are lost (or the call raises).

## Hypotheses worth knowing

* C24, C25: the noise bound is worst case. It is below the decoding margin for the test parameters. For the production parameters the worst
  case exceeds the margin, so correctness there is conditional on the actual noise (`C24_decrypts`).
* C33, C36, C37: size limits keep the 32-bit accumulators exact.
* C38, C45, C46: hypotheses on sizes of consecutive moduli; C46 for one decomposition part.
* C51: comparison uses int32 weights, hence at most 31 chunks. C50: at least two chunks for the roll matrix.
* C60: slice lengths 1..32 (uint32 indices). The instance of `C60_rns_partial` and `C83_rns_sum_partial` (generator, scalar 2^254 - 1, one-bit windows) is evaluated in the kernel with a packed evaluator proved equal to the model (Lemmas/EcRnsRun.lean). The instance of `C61_rns_partial` and `C83_rns_xyzz_sum_partial` (same scalar and point) is evaluated likewise (Lemmas/EcRnsXRun*.lean).
