{
 "claims": [
  {
   "property": "C01",
   "status": "proved",
   "theorems": [
    "Verif.Props.C01_read_value",
    "Verif.Props.C01_read_error_iff",
    "Verif.Props.C01_write_read",
    "Verif.Props.C01_write_digits",
    "Verif.Props.C01_read_write",
    "Verif.Props.C01_write_wraps",
    "Verif.Props.C01_u8",
    "Verif.Props.C01_read_u8_error_iff"
   ],
   "note": "All bit lists, all integers, all widths; error branches characterised exactly."
  },
  {
   "property": "C02",
   "status": "partial",
   "theorems": [
    "Verif.Props.C02_bytes_counterexample",
    "Verif.Props.C02_bytes_negation",
    "Verif.Props.C02_bytes_roundtrip_partial",
    "Verif.Props.C02_bytes_actual",
    "Verif.Props.C02_text_roundtrip_partial",
    "Verif.Props.C02_text_rejected"
   ],
   "note": "The round trip is false for bytes >= 128 (proved by counterexample); the partial theorems cover the code points for which it holds, and what the code does for the rest."
  },
  {
   "property": "C03",
   "status": "proved",
   "theorems": [
    "Verif.Props.C03_from_callable",
    "Verif.Props.C03_from_callable_injective",
    "Verif.Props.C03_truth_table_bits",
    "Verif.Props.C03_named_gates",
    "Verif.Props.C03_cmux_table",
    "Verif.Props.C03_unknown_name",
    "Verif.Props.C03_padded",
    "Verif.Props.C03_cmux_by_name_truncated"
   ],
   "note": "Every callable and every table; lut_by_name('cmux') returning a two-input table is recorded as a separate theorem."
  },
  {
   "property": "C04",
   "status": "proved",
   "theorems": [
    "Verif.Props.C04_cache_transparent"
   ],
   "note": "Every sequence of cache operations."
  },
  {
   "property": "C05",
   "status": "proved",
   "theorems": [
    "Verif.Props.C05_decode_any",
    "Verif.Props.C05_roundtrip",
    "Verif.Props.C05_bound_tight"
   ],
   "note": "Every message, parameter set, and error; bound shown tight."
  },
  {
   "property": "C06",
   "status": "proved",
   "theorems": [
    "Verif.Props.C06_params",
    "Verif.Props.C06_encode",
    "Verif.Props.C06_test_polynomial_bound_off_by_one"
   ],
   "note": "Plus the off-by-one of the documented bound as a separate theorem."
  },
  {
   "property": "C07",
   "status": "partial",
   "theorems": [
    "Verif.Props.C07_negation",
    "Verif.Props.C07_negation_message",
    "Verif.Props.C07_extract_noise_partial"
   ],
   "note": "Violated by the code (negation proved); partial theorem covers the values for which it holds."
  },
  {
   "property": "C08",
   "status": "proved",
   "theorems": [
    "Verif.Props.C08_phase",
    "Verif.Props.C08_decrypt",
    "Verif.Props.C08_noiseless",
    "Verif.Props.C08_bool_decrypt_any",
    "Verif.Props.C08_bool_decrypt",
    "Verif.Props.C08_bool_roundtrip"
   ],
   "note": ""
  },
  {
   "property": "C09",
   "status": "proved",
   "theorems": [
    "Verif.Props.C09_linear",
    "Verif.Props.C09_constant",
    "Verif.Props.C09_not",
    "Verif.Props.C09_not_decrypts"
   ],
   "note": ""
  },
  {
   "property": "C10",
   "status": "proved",
   "theorems": [
    "Verif.Props.C10_switch_modulus"
   ],
   "note": ""
  },
  {
   "property": "C11",
   "status": "proved",
   "theorems": [
    "Verif.Props.C11_integer_div",
    "Verif.Props.C11_large_divisor_overflow",
    "Verif.Props.C11_nearest"
   ],
   "note": "For divisors up to 2^31; failure above is a separate theorem."
  },
  {
   "property": "C12",
   "status": "proved",
   "theorems": [
    "Verif.Props.C12_digits",
    "Verif.Props.C12_recompose",
    "Verif.Props.C12_exact",
    "Verif.Props.C12_summands"
   ],
   "note": ""
  },
  {
   "property": "C13",
   "status": "partial",
   "theorems": [
    "Verif.Props.C13_recompose",
    "Verif.Props.C13_exact",
    "Verif.Props.C13_range_partial",
    "Verif.Props.C13_range_negation",
    "Verif.Props.C13_truncation_not_half",
    "Verif.Props.C13_base_must_divide"
   ],
   "note": "Recomposition and truncation bound proved in full; the documented digit range is false (negation proved), the true range is C13_range_partial."
  },
  {
   "property": "C14",
   "status": "proved",
   "theorems": [
    "Verif.Props.C14_toeplitz",
    "Verif.Props.C14_poly_mul",
    "Verif.Props.C14_coefficients",
    "Verif.Props.C14_poly_dot_product",
    "Verif.Props.C14_vector_matrix",
    "Verif.Props.C14_vector_matrix_bat"
   ],
   "note": "All branches of poly_mul / poly_dot_product / vector-matrix kernels, against Polynomial.modByMonic; TPU float branch under the stated magnitude condition (exactness of float32 dot below 2^24 is an assumption on the parameter fdot)."
  },
  {
   "property": "C15",
   "status": "proved",
   "theorems": [
    "Verif.Props.C15_i32_as_u8_matmul",
    "Verif.Props.C15_hpmatmul_outer",
    "Verif.Props.C15_hpmatmul_conv",
    "Verif.Props.C15_i32_matmul",
    "Verif.Props.C15_bat_matmul"
   ],
   "note": "Integer products modulo 2^32 (2^64 for hpmatmul, with 64-bit types enabled, see C111), for every shape, with the accumulator bounds stated."
  },
  {
   "property": "C16",
   "status": "proved",
   "theorems": [
    "Verif.Props.C16_monomial_mul",
    "Verif.Props.C16_monomial_mul_log",
    "Verif.Props.C16_negative",
    "Verif.Props.C16_period",
    "Verif.Props.C16_scale",
    "Verif.Props.C16_x_power_n_minus_1"
   ],
   "note": "Every integer exponent, negative wrapped exponents, period, smaller moduli, scale_by_x_power_n_minus_1 and x_power_n_minus_1."
  },
  {
   "property": "C17",
   "status": "proved",
   "theorems": [
    "Verif.Props.C17_phase",
    "Verif.Props.C17_decrypt_any",
    "Verif.Props.C17_decrypt",
    "Verif.Props.C17_linear"
   ],
   "note": "All dimensions, degrees, keys, mask and error polynomials; the decrypt step for any encoding parameters."
  },
  {
   "property": "C18",
   "status": "proved",
   "theorems": [
    "Verif.Props.C18_sample_extract",
    "Verif.Props.C18_encrypt"
   ],
   "note": "Sample extraction at index 0, as in the code."
  },
  {
   "property": "C19",
   "status": "proved",
   "theorems": [
    "Verif.Props.C19_exact",
    "Verif.Props.C19_bound"
   ],
   "note": "Exact phase formula and worst-case bound for any decomposition with base*levels at most 32."
  },
  {
   "property": "C20",
   "status": "proved",
   "theorems": [
    "Verif.Props.C20_rows",
    "Verif.Props.C20_exact",
    "Verif.Props.C20_bound",
    "Verif.Props.C20_decrypt"
   ],
   "note": "External product: exact phase formula and worst-case noise bound, with and without byte-decomposed keys."
  },
  {
   "property": "C21",
   "status": "proved",
   "theorems": [
    "Verif.Props.C21_select",
    "Verif.Props.C21_rejects"
   ],
   "note": "CMUX selects; useBat/level mismatches rejected."
  },
  {
   "property": "C22",
   "status": "proved",
   "theorems": [
    "Verif.Props.C22_odd_dimension",
    "Verif.Props.C22_blind_rotate"
   ],
   "note": "Blind rotation for both key layouts (plain and pairwise/BMMP), any dimension."
  },
  {
   "property": "C23",
   "status": "proved",
   "theorems": [
    "Verif.Props.C23_accepts",
    "Verif.Props.C23_lookup",
    "Verif.Props.C23_identity",
    "Verif.Props.C23_trivial"
   ],
   "note": "All tables, all phases within the error margin."
  },
  {
   "property": "C24",
   "status": "proved",
   "theorems": [
    "Verif.Props.C24_bootstrap",
    "Verif.Props.C24_decrypts"
   ],
   "note": "Worst-case noise bound; for the test parameters it is small enough for the conclusion to be useful, for the production parameters the worst-case bound exceeds the decoding margin (security relies on average-case noise), so C24_decrypts is stated conditionally on the bound."
  },
  {
   "property": "C25",
   "status": "proved",
   "theorems": [
    "Verif.Props.C25_table_lookup",
    "Verif.Props.C25_circuit",
    "Verif.Props.C25_circuit_decrypts",
    "Verif.Props.C25_pmap",
    "Verif.Props.C25_lut1"
   ],
   "note": "Every circuit of gates, LUTs and cmux; worst-case noise hypothesis (shown satisfiable for the test parameters); pmap variants equal the map of the single call."
  },
  {
   "property": "C26",
   "status": "proved",
   "theorems": [
    "Verif.Props.C26_batch_vmap",
    "Verif.Props.C26_rejects"
   ],
   "note": "Arrays along the mapped axis; pytrees are in C92, moves of the axis are not modelled."
  },
  {
   "property": "C27",
   "status": "proved",
   "theorems": [
    "Verif.Props.C27_shape_generator",
    "Verif.Props.C27_normalize",
    "Verif.Props.C27_digits",
    "Verif.Props.C27_cycle",
    "Verif.Props.C27_cycle_noise"
   ],
   "note": " C27_digits: they are the binary digits of the value, leading digit first."
  },
  {
   "property": "C28",
   "status": "partial",
   "theorems": [
    "Verif.Props.C28_reduction_partial",
    "Verif.Props.C28_small_moduli_partial",
    "Verif.Props.C28_below_2_53_partial",
    "Verif.Props.C28_violated"
   ],
   "note": "Proved: the reduction is exact for z < 2^(2*clog m) with moduli whose double-precision reciprocal is exact, for all moduli up to 2^26, and for moduli where the quotient fits 53 bits. Disproved in general (C28_violated, prime 536903681): the double-precision true division rounds the Barrett constant up and the result wraps."
  },
  {
   "property": "C29",
   "status": "proved",
   "theorems": [
    "Verif.Props.C29_barrett",
    "Verif.Props.C29_subtract",
    "Verif.Props.C29_agree",
    "Verif.Props.C29_unreduced",
    "Verif.Props.C29_simple_words"
   ],
   "note": "Both modular additions return the canonical sum for reduced inputs; agreement of the variants; witness that unreduced inputs break the single-subtraction variant."
  },
  {
   "property": "C30",
   "status": "proved",
   "theorems": [
    "Verif.Props.C30_bits",
    "Verif.Props.C30_involution",
    "Verif.Props.C30_complement",
    "Verif.Props.C30_array",
    "Verif.Props.C30_array_perm",
    "Verif.Props.C30_perm"
   ],
   "note": ""
  },
  {
   "property": "C31",
   "status": "proved",
   "theorems": [
    "Verif.Props.C31_forward",
    "Verif.Props.C31_inverse_left",
    "Verif.Props.C31_inverse_right",
    "Verif.Props.C31_product",
    "Verif.Props.C31_poly"
   ],
   "note": "Evaluation at the odd powers of psi, both inverse directions, negacyclic product, and the _poly variants with bit-reversed order."
  },
  {
   "property": "C32",
   "status": "proved",
   "theorems": [
    "Verif.Props.C32_constructor",
    "Verif.Props.C32_forward",
    "Verif.Props.C32_inverse_left",
    "Verif.Props.C32_inverse_right",
    "Verif.Props.C32_product"
   ],
   "note": "In-place list loops with the running index; both inverse directions as list equalities, evaluation at odd powers in bit-reversed order, negacyclic product; n = 1 is rejected by the constructor (IndexError)."
  },
  {
   "property": "C33",
   "status": "proved",
   "theorems": [
    "Verif.Props.C33_forward",
    "Verif.Props.C33_inverse_left",
    "Verif.Props.C33_inverse_right"
   ],
   "note": "For every power-of-two grid and prime modulus with exact reciprocal the four-step transform equals the reference transform in row-major order, and ntt/intt invert each other, for all 32-bit inputs. FourStep records the size limits under which the 32-bit accumulators and Barrett range suffice. C32 relates the in-place transform to the same evaluation."
  },
  {
   "property": "C34",
   "status": "proved",
   "theorems": [
    "Verif.Props.C34_prime_factors",
    "Verif.Props.C34_generator",
    "Verif.Props.C34_root_of_unity",
    "Verif.Props.C34_rejects",
    "Verif.Props.C34_mod_exp",
    "Verif.Props.C34_primitive_root",
    "Verif.Props.C34_primitive_root_rejects"
   ],
   "note": "root_of_unity / primitive_root; includes rejection cases (m = 1 raises IndexError-like failure)."
  },
  {
   "property": "C35",
   "status": "proved",
   "theorems": [
    "Verif.Props.C35_reconstruct",
    "Verif.Props.C35_roundtrip",
    "Verif.Props.C35_rejects",
    "Verif.Props.C35_rows",
    "Verif.Props.C35_ec_rejects",
    "Verif.Props.C35_ec_reconstruct",
    "Verif.Props.C35_ec_roundtrip"
   ],
   "note": "Arbitrary lists of pairwise coprime positive moduli; both packages."
  },
  {
   "property": "C36",
   "status": "proved",
   "theorems": [
    "Verif.Props.C36_tables",
    "Verif.Props.C36_basis_change"
   ],
   "note": "For moduli with exact double-precision reciprocal (GoodModulus, see C28) below 2^31 and 1020 * limbs <= 2^ceil(log2 p)."
  },
  {
   "property": "C37",
   "status": "proved",
   "theorems": [
    "Verif.Props.C37_congruent",
    "Verif.Props.C37_merged",
    "Verif.Props.C37_reduced"
   ],
   "note": "Inner dimension bounded by K*4*255^2 < 2^32 (uint32 accumulator); the reduced form needs 1020*K <= 2^ceil(log2 q)."
  },
  {
   "property": "C38",
   "status": "partial",
   "theorems": [
    "Verif.Props.C38_rescale_partial",
    "Verif.Props.C38_rescale_wraps",
    "Verif.Props.C38_rejects"
   ],
   "note": "Rescaling is exactly divide-and-round on every chain whose dropped modulus is at most 2q_i+1; C38_rescale_wraps shows that beyond this bound a signed intermediate wraps and the result is wrong (defect in rescale.py)."
  },
  {
   "property": "C39",
   "status": "proved",
   "theorems": [
    "Verif.Props.C39_decrypt_encrypt",
    "Verif.Props.C39_zero_noise",
    "Verif.Props.C39_rejects"
   ],
   "note": "For every chain of distinct transform primes below 2^31 and every mask, secret and noise, decrypt(encrypt(m)) equals m plus the stated noise combination in every slot; zero noise is exact; the rejected inputs are stated."
  },
  {
   "property": "C40",
   "status": "proved",
   "theorems": [
    "Verif.Props.C40_keygen_holds",
    "Verif.Props.C40_extend",
    "Verif.Props.C40_ksk",
    "Verif.Props.C40_parts",
    "Verif.Props.C40_evaluation_key",
    "Verif.Props.C40_conjugate_key",
    "Verif.Props.C40_rejects",
    "Verif.Props.C40_extend_negative"
   ],
   "note": "Key-switching keys hold P times the source key on the limbs of their part and zero elsewhere, for every dnum, mask and noise; evaluation and conjugation keys are instances; the sign loss of extending a non-binary secret is stated as C40_extend_negative."
  },
  {
   "property": "C41",
   "status": "proved",
   "theorems": [
    "Verif.Props.C41_partition",
    "Verif.Props.C41_restore",
    "Verif.Props.C41_rejects"
   ],
   "note": "For every partition of a chain the control indices select a partition of the limbs and restoring is the inverse permutation; malformed requests are rejected."
  },
  {
   "property": "C42",
   "status": "proved",
   "theorems": [
    "Verif.Props.C42_automorphism",
    "Verif.Props.C42_subst_exists",
    "Verif.Props.C42_rejects"
   ],
   "note": "The slot permutation is the substitution X -> X^g for every odd g and every degree 2^k, against an abstract substitution specification."
  },
  {
   "property": "C43",
   "status": "proved",
   "theorems": [
    "Verif.Props.C43_flip",
    "Verif.Props.C43_flip_is_inverse",
    "Verif.Props.C43_conjugate"
   ],
   "note": "Reversing the slots is the substitution X -> X^(2N-1)."
  },
  {
   "property": "C44",
   "status": "proved",
   "theorems": [
    "Verif.Props.C44_tensor",
    "Verif.Props.C44_tensor_decrypts",
    "Verif.Props.C44_plain",
    "Verif.Props.C44_rejects",
    "Verif.Props.C44_simple",
    "Verif.Props.C44_simple_wraps"
   ],
   "note": "Tensor product, plaintext product and their ring semantics, for every reduced pair of ciphertexts over valid moduli. The unreduced uint32 kernel mul_simple is exact only below 2^32: C44_simple gives the exact condition and C44_simple_wraps a witness where it is wrong."
  },
  {
   "property": "C45",
   "status": "proved",
   "theorems": [
    "Verif.Props.C45_relinearize",
    "Verif.Props.C45_generated_evaluation_key",
    "Verif.Props.C45_multiply",
    "Verif.Props.C45_nothing_left",
    "Verif.Props.C45_rejects",
    "Verif.Props.C45_short_key",
    "Verif.Props.C45_generated_keys",
    "Verif.Props.C45_key_switch"
   ],
   "note": "Key switching and relinearisation are correct up to an explicitly bounded noise polynomial for every chain, every digit count and every reduced input; generated keys meet the hypotheses. A key with fewer parts than the kernel is not rejected: the last part is used again (JAX clamps the index), see C46_dnum_negation. C45_nothing_left: a composite degree of 0 drops all moduli and the kernel is refused. The kept moduli are stated without the slicing of the model (Dropped)."
  },
  {
   "property": "C46",
   "status": "proved",
   "theorems": [
    "Verif.Props.C46_generated_key",
    "Verif.Props.C46_hmuxrot",
    "Verif.Props.C46_brot_mux",
    "Verif.Props.C46_generated_mux_keys",
    "Verif.Props.C46_brot_cm",
    "Verif.Props.C46_rejects",
    "Verif.Props.C46_dnum_negation"
   ],
   "note": "Conditional rotation, the whole mux blind rotation (any number of bits, by induction), key generation and the column method, up to explicitly bounded noise; one decomposition part (dnum = 1), as the rotation keys hold one part: C46_dnum_negation gives a kernel with dnum = 2, which precompute_constants accepts, and a noiseless rotation with a wrong result. Uses the rescaling theorem of C38, hence the same hypothesis on the sizes of consecutive moduli."
  },
  {
   "property": "C47",
   "status": "proved",
   "theorems": [
    "Verif.Props.C47_range",
    "Verif.Props.C47_roundtrip"
   ],
   "note": "The division by the scale and the FFT are floating point and not part of this claim."
  },
  {
   "property": "C48",
   "status": "proved",
   "theorems": [
    "Verif.Props.C48_forms",
    "Verif.Props.C48_rejects",
    "Verif.Props.C48_mul_rejects_coefficient_form",
    "Verif.Props.C48_neg_add_sub",
    "Verif.Props.C48_mul",
    "Verif.Props.C48_gen",
    "Verif.Props.C48_program",
    "Verif.Props.C48_program_equal",
    "Verif.Props.C48_program_runs",
    "Verif.Props.C48_program_integers",
    "Verif.Props.C48_program_reconstruct",
    "Verif.Props.C48_length_unchecked",
    "Verif.Props.C48_long_lists"
   ],
   "note": "Conversions, neg/add/sub/mul, generation and rejection. Row lengths are not checked by the code (C48_length_unchecked; higher coefficients are dropped, C48_long_lists); the other theorems assume well-formed rows. Whole programs with in-place changes of form: every object has the reduced coefficients of the ring element that the same statements compute (C48_program, C48_program_equal), and in coefficient form is what gen_rns_polynomial makes of the integer polynomial the statements compute with X^n = -1 (C48_program_integers); reconstruct_crt returns its coefficients modulo the product of different primes (C48_program_reconstruct), and a program raises exactly if an operand is missing or has the wrong form (C48_program_runs)."
  },
  {
   "property": "C49",
   "status": "proved",
   "theorems": [
    "Verif.Props.C49_round_trip",
    "Verif.Props.C49_rejects",
    "Verif.Props.C49_unsized",
    "Verif.Props.C49_inverse",
    "Verif.Props.C49_algorithm"
   ],
   "note": "int_to_array / array_to_int and the algorithm-package variants; uniqueness, round trip, rejection of over-wide and negative inputs."
  },
  {
   "property": "C50",
   "status": "proved",
   "theorems": [
    "Verif.Props.C50_value",
    "Verif.Props.C50_terminates",
    "Verif.Props.C50_end_around",
    "Verif.Props.C50_batch",
    "Verif.Props.C50_carry_add"
   ],
   "note": "Termination and value of the carry while-loop for every chunk width and every vector; the carry that falls off the top is an end-around carry and is excluded by the value hypothesis."
  },
  {
   "property": "C51",
   "status": "partial",
   "theorems": [
    "Verif.Props.C51_compare",
    "Verif.Props.C51_add2",
    "Verif.Props.C51_add3",
    "Verif.Props.C51_sub_partial",
    "Verif.Props.C51_sub_off_by_one",
    "Verif.Props.C51_sub_false",
    "Verif.Props.C51_cond_sub_mod",
    "Verif.Props.C51_cond_sub"
   ],
   "note": "Comparison, both additions and the conditional subtractions are exact. sub_2u16 is off by one when the top chunk of the difference is 0xFFFF; C51_sub_false exhibits it and C51_sub_partial proves every other case."
  },
  {
   "property": "C52",
   "status": "proved",
   "theorems": [
    "Verif.Props.C52_mul",
    "Verif.Props.C52_mul_u8",
    "Verif.Props.C52_mul_shift"
   ],
   "note": "Schoolbook convolution in 8-bit lanes, rechunking and the shifted product, for all chunk counts covered by the lane bound."
  },
  {
   "property": "C53",
   "status": "proved",
   "theorems": [
    "Verif.Props.C53_constant",
    "Verif.Props.C53_reduction",
    "Verif.Props.C53_mod_mul",
    "Verif.Props.C53_mod_mul_field"
   ],
   "note": "Barrett reduction returns the canonical residue for every product of two reduced inputs."
  },
  {
   "property": "C54",
   "status": "proved",
   "theorems": [
    "Verif.Props.C54_mod_mul_lazy",
    "Verif.Props.C54_chain",
    "Verif.Props.C54_reference",
    "Verif.Props.C54_batch",
    "Verif.Props.C54_main"
   ],
   "note": "Lazy reduction is congruent and stays inside the 25-chunk format, closed under iteration. The host-side reference is congruent and below p 2^16 for every modulus of at most 251 bytes, on lists of operands up to and including the bound, and its self-test passes for every outcome of its random draws."
  },
  {
   "property": "C55",
   "status": "proved",
   "theorems": [
    "Verif.Props.C55_find_moduli",
    "Verif.Props.C55_moduli",
    "Verif.Props.C55_fold",
    "Verif.Props.C55_reference",
    "Verif.Props.C55_fold_vector",
    "Verif.Props.C55_add",
    "Verif.Props.C55_add_rejects",
    "Verif.Props.C55_constant"
   ],
   "note": "Moduli search, pairwise coprimality of the 50 generated moduli, fold reduction, foldAdd and RNS constants; the python conversion helpers are refined to the residue specification."
  },
  {
   "property": "C56",
   "status": "proved",
   "theorems": [
    "Verif.Props.C56_table",
    "Verif.Props.C56_reduction",
    "Verif.Props.C56_mod_mul",
    "Verif.Props.C56_mod_mul_field",
    "Verif.Props.C56_unique"
   ],
   "note": "The float quotient estimate is modelled with an arbitrary correctly-rounded float division; result independent of the rounding."
  },
  {
   "property": "C57",
   "status": "partial",
   "theorems": [
    "Verif.Props.C57_negate_partial",
    "Verif.Props.C57_zero_check_partial",
    "Verif.Props.C57_negate_false",
    "Verif.Props.C57_zero_check_false",
    "Verif.Props.C57_products",
    "Verif.Props.C57_negate_zero"
   ],
   "note": "Violation: negation of a vector with a zero limb is wrong (C57_negate_false, C57_zero_check_false). The partial theorems need the relevant limbs nonzero."
  },
  {
   "property": "C58",
   "status": "partial",
   "theorems": [
    "Verif.Props.C58_rns_add_false_ordinary",
    "Verif.Props.C58_rns_double_partial",
    "Verif.Props.C58_rns_add_partial",
    "Verif.Props.C58_rns_add_false",
    "Verif.Props.C58_add",
    "Verif.Props.C58_double",
    "Verif.Props.C58_point_add_partial",
    "Verif.Props.C58_point_add_exceptional",
    "Verif.Props.C58_shift",
    "Verif.Props.C58_shift_odd",
    "Verif.Props.C58_convert_to_affine",
    "Verif.Props.C58_barrett_add",
    "Verif.Props.C58_barrett_double",
    "Verif.Props.C58_lazy_add",
    "Verif.Props.C58_lazy_double"
   ],
   "note": "Formulas proved for all fields, short Weierstrass curves and representatives; Barrett and lazy array versions proved. point_add is wrong for inverse points and for equal points with different representatives (C58_point_add_exceptional). RNS doubling proved for x != 0. RNS addition is wrong when the first point has x = 0 (C58_rns_add_false) and also on ordinary points, 4G + 17G with unreduced but admissible coordinates (C58_rns_add_false_ordinary); proved for x != 0 under the proviso that the quotient estimate of its last product, which reduces a negative integer, is rounded up (C58_rns_add_partial)."
  },
  {
   "property": "C59",
   "status": "partial",
   "theorems": [
    "Verif.Props.C59_constants",
    "Verif.Props.C59_add",
    "Verif.Props.C59_double",
    "Verif.Props.C59_double_eq_add",
    "Verif.Props.C59_zero",
    "Verif.Props.C59_shift",
    "Verif.Props.C59_faithful",
    "Verif.Props.C59_lazy_add",
    "Verif.Props.C59_lazy_double",
    "Verif.Props.C59_lazy_neg",
    "Verif.Props.C59_subgroup",
    "Verif.Props.C59_incomplete",
    "Verif.Props.C59_rns_add_partial",
    "Verif.Props.C59_rns_double_partial",
    "Verif.Props.C59_rns_add_false",
    "Verif.Props.C59_rns_double_false"
   ],
   "note": "Complete on points of odd order for the reference class and the 25-chunk functions; false outside (C59_incomplete). The RNS addition and doubling are false in general (C59_rns_add_false within the prime-order subgroup, C59_rns_double_false for the neutral constant) and proved under explicit limb conditions."
  },
  {
   "property": "C60",
   "status": "proved",
   "theorems": [
    "Verif.Props.C60_twisted",
    "Verif.Props.C60_range",
    "Verif.Props.C60_out_of_range",
    "Verif.Props.C60_signed",
    "Verif.Props.C60_shapes",
    "Verif.Props.C60_affine",
    "Verif.Props.C60_rns_partial"
   ],
   "note": "MSMPippengerTwisted and the signed variant over the 25-chunk lazy arithmetic, from integer coordinates to integer coordinates, for points of odd order, every slice length 1..32 and every parallel factor; C60_out_of_range: scalars outside the window range are silently reduced; C60_affine composes with twist and convert_to_affine. The residue-number-system (RNS) instance is covered by C60_rns_partial, for runs whose RNS operations all stay in the domain of C59_rns_*_partial (checked by an instrumented run); Props/PippengerRnsRun.lean shows such a run for the generator and the scalar 2^254 - 1 (253 doublings and 257 additions evaluated in the kernel)."
  },
  {
   "property": "C61",
   "status": "partial",
   "theorems": [
    "Verif.Props.C61_rns_partial",
    "Verif.Props.C61_rns_empty_window",
    "Verif.Props.C61_partial",
    "Verif.Props.C61_mask",
    "Verif.Props.C61_empty_window",
    "Verif.Props.C61_small_scalars"
   ],
   "note": "C61_partial: correct whenever all used additions and doublings are in the domain of the XYZZ formulas and no window is empty. C61_empty_window, C61_small_scalars: the unrestricted claim is false; with an empty window the result has ZZ = 0 mod p and represents no point. C61_mask: masked and indexed accumulation agree. The same for pippenger_rns.MSMPippenger on residue vectors: C61_rns_partial (domains of the residue-vector formulas, which include that the last quotient estimate of each addition is rounded up), C61_rns_empty_window. A complete run inside the domains is in Props/PippengerRnsXyzzRun.lean."
  },
  {
   "property": "C62",
   "status": "proved",
   "theorems": [
    "Verif.Props.C62_unsigned",
    "Verif.Props.C62_signed",
    "Verif.Props.C62_signed_accepts",
    "Verif.Props.C62_signed_order",
    "Verif.Props.C62_signed_one"
   ],
   "note": "Unsigned and signed digit decompositions; C62_signed_one: slice length 1 accepts only the scalar 0."
  },
  {
   "property": "C63",
   "status": "partial",
   "theorems": [
    "Verif.Props.C63_plain_new",
    "Verif.Props.C63_plain",
    "Verif.Props.C63_plain_eq",
    "Verif.Props.C63_different_primes",
    "Verif.Props.C63_barrett_new",
    "Verif.Props.C63_barrett_reduction",
    "Verif.Props.C63_barrett",
    "Verif.Props.C63_barrett_canonical_partial",
    "Verif.Props.C63_barrett_add_false",
    "Verif.Props.C63_div_zero",
    "Verif.Props.C63_mont_new",
    "Verif.Props.C63_mont_reduction",
    "Verif.Props.C63_mont",
    "Verif.Props.C63_mont_canonical_partial",
    "Verif.Props.C63_mont_add_false",
    "Verif.Props.C63_mont_change",
    "Verif.Props.C63_mont_form",
    "Verif.Props.C63_pow",
    "Verif.Props.C63_mont_pow",
    "Verif.Props.C63_bigint_prime"
   ],
   "note": "Plain class correct (C63_plain). Barrett and Montgomery: results congruent to the mathematical result for all operands (C63_barrett, C63_mont); canonical except when a + b = p (C63_*_canonical_partial), where the addition returns p itself (C63_*_add_false). Division by zero silently returns 0 (C63_div_zero); Montgomery ** and unchecked operand forms are wrong (C63_pow, C63_mont_form); a BigInt prime without k raises TypeError (C63_bigint_prime)."
  },
  {
   "property": "C64",
   "status": "proved",
   "theorems": [
    "Verif.Props.C64_bucket_flags",
    "Verif.Props.C64_shapes",
    "Verif.Props.C64_reduction_flags"
   ],
   "note": "Bucket flags at every step, and flags of the running and window sums in the reduction."
  },
  {
   "property": "C65",
   "status": "partial",
   "theorems": [
    "Verif.Props.C65_twist",
    "Verif.Props.C65_twist_total",
    "Verif.Props.C65_twist_on_curve",
    "Verif.Props.C65_untwist",
    "Verif.Props.C65_untwist_twist",
    "Verif.Props.C65_generate_point",
    "Verif.Props.C65_twist_int_coordinates",
    "Verif.Props.C65_convert_to_affine",
    "Verif.Props.C65_convert_to_affine_neutral",
    "Verif.Props.C65_twist_projective_partial",
    "Verif.Props.C65_twist_projective_false",
    "Verif.Props.C65_generate_exact",
    "Verif.Props.C65_int_coordinates_exact",
    "Verif.Props.C65_int_coordinates_loses"
   ],
   "note": "Round trip and curve membership proved; convert_to_affine of the neutral point returns (-1,0) and twist of a projective point with z != 1 is wrong (violations proved). C65_generate_exact and C65_int_coordinates_exact: exactly which points the two entry points accept; twist_int_coordinates turns a point without Edwards coordinates, such as (-1, 0), into the neutral element without an exception (C65_int_coordinates_loses)."
  },
  {
   "property": "C66",
   "status": "partial",
   "theorems": [
    "Verif.Props.C66_add_z2_eq_1",
    "Verif.Props.C66_double",
    "Verif.Props.C66_add",
    "Verif.Props.C66_add_exceptional",
    "Verif.Props.C66_point_add_partial",
    "Verif.Props.C66_point_add_same_false",
    "Verif.Props.C66_point_add_unflagged_false",
    "Verif.Props.C66_shift",
    "Verif.Props.C66_convert_to_affine"
   ],
   "note": "Formulas proved; point_add is wrong for equal points with different representatives, and for inverse points the result is not flagged as zero (violations proved)."
  },
  {
   "property": "C67",
   "status": "partial",
   "theorems": [
    "Verif.Props.C67_copy_partial",
    "Verif.Props.C67_copy_zero",
    "Verif.Props.C67_range"
   ],
   "note": "C67_copy_partial: correct for every nonzero value; C67_copy_zero: copy(0) returns the element itself in all classes."
  },
  {
   "property": "C68",
   "status": "proved",
   "theorems": [
    "Verif.Props.C68_forward",
    "Verif.Props.C68_inverse",
    "Verif.Props.C68_embedding"
   ],
   "note": "Over exact complex numbers (the code uses complex128; floating-point error is outside the model)."
  },
  {
   "property": "C69",
   "status": "proved",
   "theorems": [
    "Verif.Props.C69_encode",
    "Verif.Props.C69_decode",
    "Verif.Props.C69_roundtrip",
    "Verif.Props.C69_rejects",
    "Verif.Props.C69_excess_slots"
   ],
   "note": "Exact real arithmetic; np.round is any function within 1/2. C69_excess_slots: a list longer than N/2 is not rejected as such by encode; the theorem states what happens."
  },
  {
   "property": "C70",
   "status": "proved",
   "theorems": [
    "Verif.Props.C70_end_to_end"
   ],
   "note": "Composition of C69 and C39 with explicit noise bound."
  },
  {
   "property": "C71",
   "status": "proved",
   "theorems": [
    "Verif.Props.C71_product",
    "Verif.Props.C71_sum",
    "Verif.Props.C71_period",
    "Verif.Props.C71_rotate_left",
    "Verif.Props.C71_rotate_right",
    "Verif.Props.C71_conjugate"
   ],
   "note": "Pure statement about the embedding proved in C68, used by C72."
  },
  {
   "property": "C72",
   "status": "proved",
   "theorems": [
    "Verif.Props.C72_decode",
    "Verif.Props.C72_encrypt",
    "Verif.Props.C72_add",
    "Verif.Props.C72_multiply",
    "Verif.Props.C72_rotate",
    "Verif.Props.C72_conjugate",
    "Verif.Props.C72_plain",
    "Verif.Props.C72_rescale"
   ],
   "note": "C72_decode, C72_encrypt, C72_add, C72_multiply, C72_plain, C72_rotate (generated key, one decomposition part), C72_conjugate (any valid key), C72_rescale. Moduli chains under the hypotheses of C38/C45/C46."
  },
  {
   "property": "C73",
   "status": "proved",
   "theorems": [
    "Verif.Props.C73_chunks",
    "Verif.Props.C73_rechunkify",
    "Verif.Props.C73_dense",
    "Verif.Props.C73_matmul",
    "Verif.Props.C73_overflow",
    "Verif.Props.C73_jax_double_counts",
    "Verif.Props.C73_jax_partial",
    "Verif.Props.C73_wide_chunks"
   ],
   "note": "C73_dense, C73_matmul (up to 8256 columns, sharp by C73_overflow), C73_chunks, C73_rechunkify. Violations: C73_jax_double_counts (the _jax variant is wrong from x = 256 on), C73_wide_chunks (chunk widths 16 and 32 are cut to 8 bits). C73_jax_partial: the _jax variant is right for one-byte x."
  },
  {
   "property": "C74",
   "status": "proved",
   "theorems": [
    "Verif.Props.C74_session",
    "Verif.Props.C74_test_parameters",
    "Verif.Props.C74_production_structure",
    "Verif.Props.C74_sources"
   ],
   "note": "C74_session is the general statement; C74_test_parameters instantiates it for get_params_for_test; C74_production_structure shows which conditions the 128-bit set meets (all structural ones) and which it does not (the worst-case noise bound); C74_sources shows that the shipped sources satisfy the assumption."
  },
  {
   "property": "C75",
   "status": "partial",
   "theorems": [
    "Verif.Props.C75_modulus_switch_partial",
    "Verif.Props.C75_guard",
    "Verif.Props.C75_guard_false"
   ],
   "note": "False: C75_guard_false has the production parameters pass the check and the message change from 0 to 6 without any noise (the check assumes the square root of the worst case). C75_modulus_switch_partial: the worst-case condition that does suffice. C75_guard: exactly which parameters the check accepts."
  },
  {
   "property": "C76",
   "status": "partial",
   "theorems": [
    "Verif.Props.C76_lwe_key_any_entry",
    "Verif.Props.C76_almost_all_masks",
    "Verif.Props.C76_independent_noise_false",
    "Verif.Props.C76_row_noise_partial",
    "Verif.Props.C76_exact_equations",
    "Verif.Props.C76_key_from_rows",
    "Verif.Props.C76_key_recovery",
    "Verif.Props.C76_bootstrapping_key",
    "Verif.Props.C76_key_recovery_dimension",
    "Verif.Props.C76_bootstrapping_key_dimension",
    "Verif.Props.C76_lwe_key_from_rlwe_key",
    "Verif.Props.C76_lwe_key_recovery"
   ],
   "note": "False: one scalar error per row is broadcast over all coefficients (C76_independent_noise_false, C76_row_noise_partial), so differences of neighbouring coefficients are noise-free linear equations in the key (C76_exact_equations) and one public row with an odd mask determines the key up to 2(2B+1) candidates (C76_key_recovery, C76_bootstrapping_key); for every RLWE dimension k, production included, k rows whose mask parities have odd determinant leave 2(2B+1)^k candidates (C76_key_recovery_dimension, C76_bootstrapping_key_dimension), and the RLWE key determines the LWE key (C76_lwe_key_from_rlwe_key), so the bootstrapping key alone leaves that many candidates for the LWE key (C76_lwe_key_recovery); counted over all masks, the LWE key is among them for all but a fraction (1 - oddCount k / 2^(k^2))^E of the masks of E entries, (5/8)^1200 in production (C76_lwe_key_any_entry, C76_almost_all_masks)."
  },
  {
   "property": "C77",
   "status": "partial",
   "theorems": [
    "Verif.Props.C77_samplers_partial",
    "Verif.Props.C77_rejects",
    "Verif.Props.C77_ternary_is_binary",
    "Verif.Props.C77_independent"
   ],
   "note": "C77_samplers_partial gives the support of all four samplers, C77_independent that every Gaussian and uniform polynomial occurs, C77_rejects the raised errors. The ternary claim is false: C77_ternary_is_binary (gen_ternary_poly draws from [0, 1] and never returns -1)."
  },
  {
   "property": "C78",
   "status": "proved",
   "theorems": [
    "Verif.Props.C78_session",
    "Verif.Props.C78_keys",
    "Verif.Props.C78_cm_keys",
    "Verif.Props.C78_lift"
   ],
   "note": "C78_session, C78_keys, C78_cm_keys, C78_lift. The bound B on the normal samples and the ranges of choice/randrange/sample are the assumptions on the generator (RngOk), satisfied by an explicit generator."
  },
  {
   "property": "C79",
   "status": "proved",
   "theorems": [
    "Verif.Props.C79_circuit",
    "Verif.Props.C79_decode",
    "Verif.Props.C79_inputs",
    "Verif.Props.C79_keys"
   ],
   "note": "C79_circuit (induction over programs), C79_decode, C79_inputs, C79_keys. The bounds are worst case. Rotation keys use one decomposition part, as in the code."
  },
  {
   "property": "C80",
   "status": "partial",
   "theorems": [
    "Verif.Props.C80_tree_map",
    "Verif.Props.C80_round_trip",
    "Verif.Props.C80_extra_leaves",
    "Verif.Props.C80_faithful",
    "Verif.Props.C80_jit",
    "Verif.Props.C80_mul_injected",
    "Verif.Props.C80_mul_uninitialised",
    "Verif.Props.C80_placeholder_false",
    "Verif.Props.C80_unregistered_false",
    "Verif.Props.C80_mul_evaluation_keys",
    "Verif.Props.C80_constructors"
   ],
   "note": "C80_tree_map, C80_round_trip, C80_faithful, C80_jit, C80_constructors for all registered classes and any nesting; C80_mul_injected for kernels with injected parts. False in two places: C80_placeholder_false (AddModularSubtract cannot be rebuilt from leaves that are not iterable) and C80_unregistered_false (types.EvaluationKeys, returned by key generation, is not registered). C80_mul_uninitialised: the documented loss of injected kernels. jax.tree_util itself is modelled from its documentation."
  },
  {
   "property": "C81",
   "status": "partial",
   "theorems": [
    "Verif.Props.C81_twisted_partial",
    "Verif.Props.C81_signed_partial",
    "Verif.Props.C81_twisted_runs",
    "Verif.Props.C81_signed_runs",
    "Verif.Props.C81_xyzz",
    "Verif.Props.C81_xyzz_runs",
    "Verif.Props.C81_twisted_reuse_false",
    "Verif.Props.C81_signed_reuse_false"
   ],
   "note": "C81_xyzz, C81_xyzz_runs: MSMPippenger meets the claim for every history and either point arithmetic, bit for bit. False for the twisted classes, whose initialize keeps the old buckets: C81_twisted_reuse_false, C81_signed_reuse_false. What they compute instead, for every history: C81_twisted_partial, C81_signed_partial (the sum over all accumulations since the object was created; the claim when there was one), and C81_twisted_runs, C81_signed_runs for complete runs."
  },
  {
   "property": "C82",
   "status": "proved",
   "theorems": [
    "Verif.Props.C82_lazy_twisted",
    "Verif.Props.C82_lazy_xyzz",
    "Verif.Props.C82_barrett_xyzz",
    "Verif.Props.C82_rns",
    "Verif.Props.C82_mismatch",
    "Verif.Props.C82_batch_first",
    "Verif.Props.C82_convert",
    "Verif.Props.C82_convert_rejects",
    "Verif.Props.C82_convert_negative",
    "Verif.Props.C82_convert_rns",
    "Verif.Props.C82_twisted_ints",
    "Verif.Props.C82_lazy_xyzz_ints",
    "Verif.Props.C82_barrett_xyzz_ints"
   ],
   "note": "C82_lazy_twisted, C82_lazy_xyzz, C82_barrett_xyzz, C82_rns: pointwise, for arbitrary chunk contents. C82_batch_first, C82_mismatch. Conversions: C82_convert, C82_convert_rejects, C82_convert_rns; a negative coordinate becomes zero (C82_convert_negative). From integers to integers with the group law: C82_twisted_ints, C82_lazy_xyzz_ints, C82_barrett_xyzz_ints (the residue formulas are only partially correct for one point, C58 and C59)."
  },
  {
   "property": "C83",
   "status": "proved",
   "theorems": [
    "Verif.Props.C83_twisted",
    "Verif.Props.C83_signed",
    "Verif.Props.C83_xyzz",
    "Verif.Props.C83_rns",
    "Verif.Props.C83_twisted_sum",
    "Verif.Props.C83_signed_sum",
    "Verif.Props.C83_xyzz_small_scalars",
    "Verif.Props.C83_rns_sum_partial",
    "Verif.Props.C83_rejects",
    "Verif.Props.C83_scan_loop",
    "Verif.Props.C83_mask",
    "Verif.Props.C83_rns_xyzz_sum_partial",
    "Verif.Props.C83_rns_xyzz_small_scalars"
   ],
   "note": "C83_twisted, C83_signed, C83_xyzz, C83_rns: the array programs equal the algorithms on lists of points, errors included. With C60: C83_twisted_sum, C83_signed_sum (integers in, integers out). MSMPippenger inherits the fault of C61: C83_xyzz_small_scalars. For residues the sum is proved for runs inside the domains of the negations only (C83_rns_sum_partial, as C60_rns_partial); a complete run inside them is in Props/PippengerRnsRun.lean. Likewise the XYZZ class on residues: C83_rns_xyzz_sum_partial, C83_rns_xyzz_small_scalars (ZZ = 0), run in Props/PippengerRnsXyzzRun.lean. C83_scan_loop, C83_mask: variants agree. C83_rejects. jax reports a reshape that does not fit with TypeError; the model uses ValueError for all shape errors."
  },
  {
   "property": "C84",
   "status": "partial",
   "theorems": [
    "Verif.Props.C84_run_partial",
    "Verif.Props.C84_frame_partial",
    "Verif.Props.C84_local",
    "Verif.Props.C84_independent",
    "Verif.Props.C84_new_elements",
    "Verif.Props.C84_xyzz",
    "Verif.Props.C84_projective",
    "Verif.Props.C84_edwards_session",
    "Verif.Props.C84_edwards_affine",
    "Verif.Props.C84_affine_coordinates",
    "Verif.Props.C84_affine_raises",
    "Verif.Props.C84_from_affine_unusable",
    "Verif.Props.C84_convert_twice",
    "Verif.Props.C84_copy_shares_elements",
    "Verif.Props.C84_conversion_shares_one",
    "Verif.Props.C84_shift_zero_alias",
    "Verif.Props.C84_convert_zero_destroys",
    "Verif.Props.C84_zero_copy_shares_list",
    "Verif.Props.C84_converted_operand",
    "Verif.Props.C84_zero_needs_twist_false"
   ],
   "note": "Proved: a program without in-place statements that converts no flagged zero of the twisted class behaves as on values (C84_run_partial), such a statement changes no existing point in any reachable state (C84_frame_partial), item assignment and append stay local (C84_local, C84_independent), results of + and << consist of new elements (C84_new_elements), group meaning (C84_edwards_session, C84_edwards_affine), reference formulas (C84_xyzz, C84_projective). Violated by the code: copy shares the field elements, conversions hand out ff_one, << 0 returns the operand, convert_to_affine of the twisted zero fails and empties the list of the point and its copies, the affine class cannot add (C84_affine_raises), XYZZ.convert_from_affine yields five coordinates (C84_from_affine_unusable), converted twisted points are accepted by + and give wrong sums (C84_converted_operand)."
  },
  {
   "property": "C85",
   "status": "proved",
   "theorems": [
    "Verif.Props.C85_binary64",
    "Verif.Props.C85_forward",
    "Verif.Props.C85_inverse",
    "Verif.Props.C85_encode",
    "Verif.Props.C85_decode",
    "Verif.Props.C85_roundtrip",
    "Verif.Props.C85_double",
    "Verif.Props.C85_remainder",
    "Verif.Props.C85_overflow",
    "Verif.Props.C85_zero_scale",
    "Verif.Props.C85_rejects",
    "Verif.Props.C85_exact_bound_false"
   ],
   "note": "The floating-point operations are parameters with an accuracy contract; binary64 with round to nearest even and textbook complex products is shown to meet it (C85_binary64), the accuracy of np.exp is assumed. Infinities and NaN are not modelled: results beyond the largest double are kept as real numbers. C85_exact_bound_false is the negative result for the bound of C69."
  },
  {
   "property": "C86",
   "status": "partial",
   "theorems": [
    "Verif.Props.C86_rescale",
    "Verif.Props.C86_accepts",
    "Verif.Props.C86_ignores_moduli",
    "Verif.Props.C86_reuse",
    "Verif.Props.C86_split",
    "Verif.Props.C86_rejects",
    "Verif.Props.C86_foreign_wrong",
    "Verif.Props.C86_reuse_wrong"
   ],
   "note": "Partial because the code violates the refusal: moduli are never compared (C86_ignores_moduli) and objects with two limbs, or any number of limbs when the kernel has two moduli, are accepted (C86_accepts gives the exact condition, C86_foreign_wrong and C86_reuse_wrong concrete wrong results). The effect on matching objects is proved under the size restriction of C38 (C86_rescale, C86_split)."
  },
  {
   "property": "C87",
   "status": "proved",
   "theorems": [
    "Verif.Props.C87_encode",
    "Verif.Props.C87_encrypt",
    "Verif.Props.C87_decode",
    "Verif.Props.C87_session",
    "Verif.Props.C87_double"
   ],
   "note": "C87_session is the whole session; C87_encode, C87_encrypt and C87_decode its parts; C87_double the closed form for doubles. The accuracy of the table of roots (numpy cos and sin) is a hypothesis; the keys must fit the program (Fits of C79)."
  },
  {
   "property": "C88",
   "status": "partial",
   "theorems": [
    "Verif.Props.C88_rejects",
    "Verif.Props.C88_digits",
    "Verif.Props.C88_value",
    "Verif.Props.C88_exact_partial",
    "Verif.Props.C88_shrunk",
    "Verif.Props.C88_lost",
    "Verif.Props.C88_negation",
    "Verif.Props.C88_negative",
    "Verif.Props.C88_torus"
   ],
   "note": "Partial because the code violates it: with fewer levels than bits every entry is divided by 2^(total - levels*log_base) (C88_shrunk) and with half of the digits or less every vector comes back as zeros (C88_lost, C88_negation); negative entries never come back (C88_negative). With all levels it holds on [0, 1/2] (C88_exact_partial), and modulo 1 everywhere if the conversion to uint32 wraps (C88_torus). Sums of float32 products are exact in the model."
  },
  {
   "property": "C89",
   "status": "partial",
   "theorems": [
    "Verif.Props.C89_tensor",
    "Verif.Props.C89_tensor_accepts",
    "Verif.Props.C89_decrypt",
    "Verif.Props.C89_decrypt_single",
    "Verif.Props.C89_decrypt_accepts",
    "Verif.Props.C89_multiply_partial",
    "Verif.Props.C89_unrelinearized",
    "Verif.Props.C89_plain",
    "Verif.Props.C89_plain_accepts",
    "Verif.Props.C89_add",
    "Verif.Props.C89_add_accepts",
    "Verif.Props.C89_relin_ignores",
    "Verif.Props.C89_negation",
    "Verif.Props.C89_key_arrays"
   ],
   "note": "Partial because the code violates the second half: tensor_multiply never reads the moduli of its second operand and the constants of the plaintext product may belong to other moduli (C89_negation), relinearize looks at no moduli at all and leaves out elements after the third (C89_relin_ignores), decrypt leaves out the third element of an unrelinearised product (C89_unrelinearized) and uses a single element twice (C89_decrypt_single). The first half is C89_tensor, C89_multiply_partial, C89_plain, C89_add, C89_decrypt; exactly what is accepted is stated by the _accepts theorems."
  },
  {
   "property": "C90",
   "status": "proved",
   "theorems": [
    "Verif.Props.C90_mod_reduce",
    "Verif.Props.C90_import",
    "Verif.Props.C90_script"
   ],
   "note": "C90_script for the script, C90_mod_reduce for the function with any target modulus. C90_import: after an import every call raises NameError, because moduli_precision is only defined by the script. The rounding of the division is a parameter with the accuracy of binary64."
  },
  {
   "property": "C91",
   "status": "partial",
   "theorems": [
    "Verif.Props.C91_session_partial",
    "Verif.Props.C91_fresh",
    "Verif.Props.C91_bconv_kept",
    "Verif.Props.C91_stale_negation",
    "Verif.Props.C91_overwritten_negation",
    "Verif.Props.C91_factory_negation",
    "Verif.Props.C91_retry_negation"
   ],
   "note": "Partial because the code violates the claim: constants found in an injected basis-conversion kernel are used whatever their moduli (C91_stale_negation; C91_bconv_kept in general), also those left by a construction that raised (C91_retry_negation); the constants of an injected ntt_current are overwritten by the next kernel that gets it (C91_overwritten_negation); a factory returning one object (C91_factory_negation). C91_session_partial proves the claim for every history under the condition that injected objects are uninitialised or prepared for the same moduli, transform kernels are distinct and not given to later kernels; C91_fresh is the case without injection."
  },
  {
   "property": "C92",
   "status": "partial",
   "theorems": [
    "Verif.Props.C92_vmap_partial",
    "Verif.Props.C92_accepts",
    "Verif.Props.C92_any_batch_size",
    "Verif.Props.C92_refuses",
    "Verif.Props.C92_wrong_length",
    "Verif.Props.C92_common_axis",
    "Verif.Props.C92_no_axis",
    "Verif.Props.C92_length_negation"
   ],
   "note": "Partial because the code violates the claim: with an in_axes shorter than the arguments the rest of them are not passed to f, with a longer one the rest of in_axes is ignored, and nothing is raised (C92_wrong_length, C92_length_negation). C92_vmap_partial proves the result in all other cases, C92_accepts that it succeeds in no further ones, C92_any_batch_size that the batch size makes no difference, C92_refuses that arguments without leaves and prefix trees, which jax.vmap takes, are refused. C92_common_axis, C92_no_axis: one int is that axis for every argument, None is refused."
  },
  {
   "property": "C93",
   "status": "proved",
   "theorems": [
    "Verif.Props.C93_fraction",
    "Verif.Props.C93_encrypt",
    "Verif.Props.C93_bootstrap",
    "Verif.Props.C93_guard",
    "Verif.Props.C93_random_key",
    "Verif.Props.C93_random_key_production",
    "Verif.Props.C93_production"
   ],
   "note": "A counting statement over all masks, without measure theory: C93_fraction (message after the switch), C93_encrypt (fresh encryptions), C93_bootstrap (whole bootstrap; the noise bound of its output is still the worst case of C24), C93_guard (all parameters the check accepts), C93_production (numbers), C93_random_key and C93_random_key_production (keys and masks drawn together: less than one pair in a million). It covers the production parameters, for which the worst-case theorems C24 and C75 have no room."
  },
  {
   "property": "C94",
   "status": "partial",
   "theorems": [
    "Verif.Props.C94_exact",
    "Verif.Props.C94_vector_matrix",
    "Verif.Props.C94_i32_matmul",
    "Verif.Props.C94_i32_matmul_259",
    "Verif.Props.C94_session",
    "Verif.Props.C94_check_insufficient",
    "Verif.Props.C94_rounding"
   ],
   "note": "Partial because the code violates the claim: the check on the base does not look at the degree. C94_check_insufficient: with degree 2048 and base 128 the result is wrong in every order of accumulation; C94_i32_matmul_259: inner dimension 259 is already too long for i32_matmul. Proved under N * 255 * D <= 2^24 (C94_exact, C94_vector_matrix), inner dimension at most 258 (C94_i32_matmul), and for sessions with the test parameters (C94_session). This discharges the hypothesis FloatDotExact, which the theorems about TPUs had before, for float32 accumulation with round to nearest."
  },
  {
   "property": "C95",
   "status": "partial",
   "theorems": [
    "Verif.Props.C95_at_most_18_partial",
    "Verif.Props.C95_18_rows",
    "Verif.Props.C95_further_rows",
    "Verif.Props.C95_negation"
   ],
   "note": "Partial because the code violates the claim: the grid is the literal (18,). With more than 18 rows the blocks of the further rows are never written (C95_further_rows gives the result, C95_negation that it is wrong for some memory content). Proved for 18 rows (C95_18_rows), and for fewer when the steps outside the array do no harm, as with a clamped block index (C95_at_most_18_partial)."
  },
  {
   "property": "C96",
   "status": "proved",
   "theorems": [
    "Verif.Props.C96_encrypt",
    "Verif.Props.C96_bound",
    "Verif.Props.C96_total",
    "Verif.Props.C96_uniform_errors",
    "Verif.Props.C96_switching_key",
    "Verif.Props.C96_switching_key_total"
   ],
   "note": "A reduction: the advantage against the library is at most the sum of the advantages against decisional LWE of two explicit attackers, which only add messages to the samples they get. Trusted: the draws are independent, masks uniform over all 32-bit words (the default bounds of both random sources), key and errors of an arbitrary distribution. The attacker does not see the bootstrapping key (see C76); the key switched from is fixed, not related to the key switched to. Hardness of LWE itself is not a theorem."
  },
  {
   "property": "C97",
   "status": "proved",
   "theorems": [
    "Verif.Props.C97_encrypt",
    "Verif.Props.C97_encrypt_sparse",
    "Verif.Props.C97_view",
    "Verif.Props.C97_total",
    "Verif.Props.C97_masks"
   ],
   "note": "A reduction to decisional ring LWE with the distributions of the code: the public key is replaced by a uniform pair, then one ciphertext after the other; the attacks are explicit (they run the encryption themselves). Plaintexts over all moduli of the key. Trusted: independent draws, uniform masks. Evaluation keys are not shown to the attacker (they encrypt functions of the secret key under itself). Ring-LWE hardness, and how the noise of the default sigma compares with it, is not a theorem."
  },
  {
   "property": "C98",
   "status": "partial",
   "theorems": [
    "Verif.Props.C98_one_source_partial",
    "Verif.Props.C98_two_sources_partial",
    "Verif.Props.C98_same_seed",
    "Verif.Props.C98_same_seed_unreachable"
   ],
   "note": "Partial because the documented use violates the claim: with one seed for both sources, as in the README, the LWE key is the beginning of the flattened RLWE key for every generator and seed (C98_same_seed), so pairs of keys that independent draws give cannot occur (C98_same_seed_unreachable). With one object for both, or two that draw independently, the keys consist of exactly the drawn bits (C98_one_source_partial, C98_two_sources_partial). The generator of Python is a parameter."
  },
  {
   "property": "C99",
   "status": "partial",
   "theorems": [
    "Verif.Props.C99_key_switch_partial",
    "Verif.Props.C99_conjugate",
    "Verif.Props.C99_hmuxrot_partial",
    "Verif.Props.C99_brot_mux",
    "Verif.Props.C99_brot_cm",
    "Verif.Props.C99_key_switch_requires",
    "Verif.Props.C99_fresh",
    "Verif.Props.C99_key_switch_ignores",
    "Verif.Props.C99_negation",
    "Verif.Props.C99_key_arrays",
    "Verif.Props.C99_brot_cm_requires",
    "Verif.Props.C99_lift_partial",
    "Verif.Props.C99_lift_message_partial",
    "Verif.Props.C99_lift_requires",
    "Verif.Props.C99_lift_negation"
   ],
   "note": "Partial because the code violates the full claim: hmuxrot accepts a ciphertext over as many other moduli, and gives another number under the moduli of the kernel (C99_negation); key_switch reads the only element of a ciphertext of one element twice (C99_key_switch_ignores). For objects over the moduli of the kernel the calls succeed and represent the documented value (C99_key_switch_partial, C99_conjugate, C99_hmuxrot_partial, C99_brot_mux, C99_brot_cm); what is required of the shapes is C99_key_switch_requires, and calls before precompute_constants raise (C99_fresh). lift_ciphertext with any number of elements: C99_lift_partial, C99_lift_message_partial, what it requires: C99_lift_requires; it accepts transform kernels for other moduli, or for one modulus, and then gives another number (C99_lift_negation)."
  },
  {
   "property": "C100",
   "status": "partial",
   "theorems": [
    "Verif.Props.C100_ring",
    "Verif.Props.C100_division",
    "Verif.Props.C100_and",
    "Verif.Props.C100_shift",
    "Verif.Props.C100_pow",
    "Verif.Props.C100_compare",
    "Verif.Props.C100_other",
    "Verif.Props.C100_negation"
   ],
   "note": "Partial because the code violates the full claim (C100_negation): an int on the left of an arithmetic operator raises, an mpz of the same value compares as different, and ceil_log2 raises for every number. Proved for all integers: the ring operations, division and remainder, &, shifts, powers and modular powers, comparisons with an int on either side, and the exceptions for other operands."
  },
  {
   "property": "C101",
   "status": "partial",
   "theorems": [
    "Verif.Props.C101_entrywise_partial",
    "Verif.Props.C101_products_partial",
    "Verif.Props.C101_requires",
    "Verif.Props.C101_negation",
    "Verif.Props.C101_limbs_refused"
   ],
   "note": "Partial because the code violates the last clause: data of one limb is broadcast, missing limbs are filled with 2^32 - 1, and a wrong result is returned without an exception (C101_negation). Proved for every shape of the leading axes: entry by entry results (C101_entrywise_partial), the batch of products decrypts to the products (C101_products_partial), and what a successful call requires (C101_requires)."
  },
  {
   "property": "C102",
   "status": "proved",
   "theorems": [
    "Verif.Props.C102_rlwe_draws",
    "Verif.Props.C102_rlwe_roundtrip",
    "Verif.Props.C102_test_sources",
    "Verif.Props.C102_rgsw_draws",
    "Verif.Props.C102_rgsw_roundtrip",
    "Verif.Props.C102_product",
    "Verif.Props.C102_blind_rotate",
    "Verif.Props.C102_switch_key"
   ],
   "note": "Any stateful source; noise hypotheses are on the values actually drawn (round trips) or on a bound for all values (products, rotations, key switches). The single scalar noise of each RGSW row is visible in C102_rgsw_draws; its consequence is C76."
  },
  {
   "property": "C103",
   "status": "partial",
   "theorems": [
    "Verif.Props.C103_uniform",
    "Verif.Props.C103_uniform_only",
    "Verif.Props.C103_production_partial",
    "Verif.Props.C103_secret",
    "Verif.Props.C103_test",
    "Verif.Props.C103_negation",
    "Verif.Props.C103_varying",
    "Verif.Props.C103_lwe_key",
    "Verif.Props.C103_mask"
   ],
   "note": "Violated by get_rng_for_test: its inclusive upper bound is 2^32, so zero comes out twice as often as any other value (C103_test, C103_negation; it is used in tests only). Proved for the production sources and all sources with default bounds; C103_uniform and C103_uniform_only say exactly which bounds are right. C96 takes masks as uniform; C103 says which sources make them so."
  },
  {
   "property": "C104",
   "status": "proved",
   "theorems": [
    "Verif.Props.C104_polynomial",
    "Verif.Props.C104_polynomial_same",
    "Verif.Props.C104_ciphertext",
    "Verif.Props.C104_rgsw",
    "Verif.Props.C104_table",
    "Verif.Props.C104_table_injective",
    "Verif.Props.C104_repr"
   ],
   "note": "Coefficients are compared as polynomials (zeros at the end of the list are not printed). C104_table is for at least one input; the table with no inputs prints one line for the number 0."
  },
  {
   "property": "C105",
   "status": "partial",
   "theorems": [
    "Verif.Props.C105_version_partial",
    "Verif.Props.C105_exact",
    "Verif.Props.C105_negation",
    "Verif.Props.C105_products_partial",
    "Verif.Props.C105_vector_matrix_partial"
   ],
   "note": "False: a TPU whose kind is not \"TPU v\", one digit and perhaps \" lite\" raises AssertionError in every product, for example version 10 (C105_negation); C105_exact lists the device kinds that work, and on these all products agree (C105_products_partial, C105_vector_matrix_partial)."
  },
  {
   "property": "C106",
   "status": "proved",
   "theorems": [
    "Verif.Props.C106_invisible",
    "Verif.Props.C106_values"
   ],
   "note": "C106_values is for degrees 2^k up to 2^32 (the permutation has dtype uint32); C106_invisible has no hypotheses."
  },
  {
   "property": "C107",
   "status": "proved",
   "theorems": [
    "Verif.Props.C107_hashable",
    "Verif.Props.C107_same",
    "Verif.Props.C107_accepts",
    "Verif.Props.C107_idempotent"
   ],
   "note": "Nesting beyond the recursion limit, dictionaries, sets and generators are not modelled."
  },
  {
   "property": "C108",
   "status": "partial",
   "theorems": [
    "Verif.Props.C108_negation",
    "Verif.Props.C108_runs_partial",
    "Verif.Props.C108_first_exception_partial",
    "Verif.Props.C108_interrupt_partial"
   ],
   "note": "False: the statement that binds `client` is in a comment of the published module, and the finally block reads it, so every call ends in a NameError, also in place of an interrupt (C108_negation). What holds: each task is run once, in order, up to the first exception, whose type and text are printed (the _partial theorems, which also say what happens if a caller sets `client` to None)."
  },
  {
   "property": "C109",
   "status": "partial",
   "theorems": [
    "Verif.Props.C109_flag",
    "Verif.Props.C109_negation",
    "Verif.Props.C109_same_partial",
    "Verif.Props.C109_product_partial",
    "Verif.Props.C109_bootstrap_negation",
    "Verif.Props.C109_bootstrap_same_partial",
    "Verif.Props.C109_high_words",
    "Verif.Props.C109_wide_same_partial",
    "Verif.Props.C109_decrypt_low",
    "Verif.Props.C109_program_same_partial",
    "Verif.Props.C109_server_key_same_partial",
    "Verif.Props.C109_program_negation"
   ],
   "note": "False: with 64-bit types the sign matrix of toeplitz_poly_mul is int64, its entries have eight bytes and the shift by the 4x4 table cannot be broadcast, so on any device but a TPU of version 5 or later with a degree divisible by 128 every product, encryption, decryption, bootstrapping-key generation, external product and rotation step raises (C109_negation), and so do the encryption of a test polynomial, every blind rotation and every bootstrapping with any key (C109_bootstrap_negation), so no server key can be made, and a program over Boolean ciphertexts raises as soon as it has a gate of two or three inputs (C109_program_negation). On such a TPU the words of a bootstrapped ciphertext are uint64 and not reduced: a mask word that is not zero is at least 2^63 (C109_high_words). What holds: without the flag, or on such a TPU, the functions return the words of the 32-bit models (for a bootstrapping and a whole program: the low words, and the same decrypted bit, C109_program_same_partial; the server key is the same), and the low words of poly_mul are the product modulo X^n + 1 in both modes. The byte layout (use_bat) and the insides of the pallas kernels are taken from the 32-bit models. The behaviour of JAX that is used (promotion of int64 and uint32, an axis of eight after the bitcast, the broadcast error) is from its documentation."
  },
  {
   "property": "C110",
   "status": "partial",
   "theorems": [
    "Verif.Props.C110_wide",
    "Verif.Props.C110_one_subtraction",
    "Verif.Props.C110_right_iff",
    "Verif.Props.C110_negation",
    "Verif.Props.C110_reduced_partial"
   ],
   "note": "False: the constants are uint64, but neither module enables 64-bit types. Without them, for every modulus from 2^15 to 2^31, the reduction is one conditional subtraction (C110_one_subtraction), right exactly for inputs below 2q (C110_right_iff); AddModularBarrett is right for sums from 2q up if and only if one of the five enabling modules has been imported (C110_negation). What holds: reduced inputs are right in both modes (C110_reduced_partial). Trusted: JAX stores uint64 as uint32 while the flag is off."
  },
  {
   "property": "C111",
   "status": "partial",
   "theorems": [
    "Verif.Props.C111_wide_partial",
    "Verif.Props.C111_low_words",
    "Verif.Props.C111_exact_iff",
    "Verif.Props.C111_bat_partial",
    "Verif.Props.C111_negation"
   ],
   "note": "False: the accumulators are converted to uint64, which is uint32 unless 64-bit types are on, and with 64-bit types on poly_mul of the same module raises outside a TPU v5+ (C109). C111_negation: in every process one of the two fails. Without the flag the products are cut to 32 bits (C111_low_words) and exact if and only if they fit (C111_exact_iff). What holds: with the flag the products are those of C15 and C73 (C111_wide_partial), without it the basis-aligned one is right when its sum fits 32 bits (C111_bat_partial)."
  },
  {
   "property": "C112",
   "status": "partial",
   "theorems": [
    "Verif.Props.C112_round_trip_iff",
    "Verif.Props.C112_built_partial",
    "Verif.Props.C112_negation"
   ],
   "note": "False: to_jnp_array asks for uint64, but rns.py does not enable 64-bit types. C112_negation: while the flag is off, for every modulus above 2^32 and every degree the constant 2^32 is lost, whether the library wraps or raises. C112_round_trip_iff gives the exact condition. What holds: the round trip is the identity for every polynomial built by any sequence of operations over moduli that fit the stored word, 2^64 with the flag and 2^32 without (C112_built_partial). Trusted: JAX stores uint64 as uint32 while the flag is off; what happens to an integer that does not fit is a parameter."
  }
 ]
}