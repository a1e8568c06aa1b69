{"id": "C01", "title": "Integers and bit slices convert back and forth without loss", "statement": "Writing an unsigned integer v as n bits (little endian) and reading the n bits back returns v whenever 0 <= v < 2^n; reading any n bits and writing them again returns the same bits; reading a slice whose length differs from the declared width is an error, and so is writing an integer outside 0..255 as a u8.", "quantifier": "every width n, every integer v, every list of bits", "why_tests_cant": "the round trip is claimed for all widths and all values; a test fixes a handful", "anchors": ["jaxite/jaxite_bool/type_converters.py: bit_slice_to_uint, uint_to_bit_slice, bit_slice_to_u8, u8_to_bit_slice"]}
{"id": "C02", "title": "Byte lists survive the trip through encrypted-bit order", "statement": "Turning a list of bytes into a flat list of bits and back with bit_slice_to_bytes gives the same bytes; turning text into bits and back gives the text padded to the requested length.", "quantifier": "every byte list / every text, every static length and padding byte", "why_tests_cant": "the unit tests only use ASCII text; the claim is about every byte value and every length", "anchors": ["jaxite/jaxite_bool/type_converters.py: u8_list_to_bit_slice, bit_slice_to_bytes, str_to_cleartext, cleartext_to_str"]}
{"id": "C03", "title": "A look-up table built from a Boolean function is that function", "statement": "LookUpTable.from_callable(n, f) has at position x the value f(bits of x, most significant first); the table printed as a cleartext list is the truth table bit by bit; the named 2-input tables are exactly AND, OR, XOR, NAND, NOR, XNOR, ANDNY, ANDYN, ORNY, ORYN; the 3-input cmux is if-then-else; unknown names are rejected.", "quantifier": "every number of inputs, every Boolean function, every input assignment, every name", "why_tests_cant": "a table over n inputs has 2^(2^n) possible functions; tests check a few", "anchors": ["jaxite/jaxite_bool/lut.py: LookUpTable, from_callable, FUNC_NAME_TO_LUT2, LutCache"]}
{"id": "C04", "title": "The LUT cache never returns the table of another function", "statement": "After any sequence of cache queries, each query returns the table / test polynomial of exactly the truth table and arity that was asked for, whatever was cached before.", "quantifier": "every history of queries to one LutCache", "why_tests_cant": "needs all histories (aliasing between arities that share an integer), tests run one order", "anchors": ["jaxite/jaxite_bool/lut.py: LutCache.lut, lut_poly, lut_by_name, lut_poly_by_name"]}
{"id": "C05", "title": "Encoding then adding noise then decoding returns the message", "statement": "encode places a message in the high bits (after the padding bits); decoding encode(m) plus any noise e (mod 2^total) returns m as long as -2^(noise_bits-1) <= e < 2^(noise_bits-1); decoding without removing padding returns the same value in the padded space.", "quantifier": "every encoding parameter set, every message in range, every noise in the half-open interval", "why_tests_cant": "noise is random at run time; the boundary of the interval and all parameter sets cannot be enumerated", "anchors": ["jaxite/jaxite_cggi/encoding.py: EncodingParameters, encode, decode, decode_without_removing_padding, remove_noise, round_to_power_of_2"]}
{"id": "C06", "title": "Encoding rejects what does not fit", "statement": "EncodingParameters rejects non-positive message length, negative padding and total lengths that leave no room; encode rejects negative messages and messages >= 2^message_bits, and accepts all others; accepted encodings fit in total_bit_length bits.", "quantifier": "all parameters, all integers", "why_tests_cant": "boundary behaviour for all integers and parameter sets", "anchors": ["jaxite/jaxite_cggi/encoding.py: EncodingParameters.__post_init__, encode"]}
{"id": "C07", "title": "extract_noise returns the noise that was added", "statement": "For every message and every noise e with |e| below half the message spacing, extract_noise(encode(m)+e) = e as a signed integer.", "quantifier": "every 32-bit plaintext, every parameter set", "why_tests_cant": "the failure (if any) is at one boundary of a 2^32-sized space", "anchors": ["jaxite/jaxite_cggi/encoding.py: extract_noise"]}
{"id": "C08", "title": "LWE decryption inverts encryption under bounded noise", "statement": "Decrypting an LWE encryption of an encoded message with the same binary key returns the message for every mask and every error of magnitude below half the message spacing; without denoising it returns plaintext + error mod 2^32; a noiseless embedding decrypts to the message under every key.", "quantifier": "every key, every mask vector, every dimension, every error in the bound, every message", "why_tests_cant": "keys, masks and errors are random; correctness is a claim about all of them", "anchors": ["jaxite/jaxite_cggi/lwe.py: encrypt, jit_encrypt, decrypt, decrypt_without_denoising, noiseless_embedding"]}
{"id": "C09", "title": "LWE ciphertexts are additively homomorphic", "statement": "The phase of a sum / difference / small multiple of ciphertexts is the sum / difference / multiple of the phases (mod 2^32); hence jaxite_bool.not_ decrypts to the negated bit and constant(b) decrypts to b.", "quantifier": "all ciphertexts, all keys, all dimensions", "why_tests_cant": "quantifies over all ciphertexts, not just fresh ones", "anchors": ["jaxite/jaxite_cggi/lwe.py", "jaxite/jaxite_bool/jaxite_bool.py: not_, constant", "jaxite/jaxite_bool/bool_params.py: noiseless_true, noiseless_false"]}
{"id": "C10", "title": "Modulus switching adds at most half a unit per entry", "statement": "After switch_modulus from 2^a to 2^b every entry is the nearest multiple, and the phase of the switched ciphertext differs from the scaled phase by at most 0.5*(hamming weight of the key + 1) <= 0.5*(n+1) units of the new modulus.", "quantifier": "every ciphertext, binary key, dimension and pair of moduli", "why_tests_cant": "a worst-case bound over all ciphertexts", "anchors": ["jaxite/jaxite_cggi/lwe.py: switch_modulus", "jaxite/jaxite_cggi/matrix_utils.py: integer_div"]}
{"id": "C11", "title": "integer_div is exact rounded division without overflow", "statement": "integer_div(x, 2^k) equals floor((x + 2^(k-1)) / 2^k) for every 32-bit x although all intermediate results are 32 bits.", "quantifier": "every 32-bit x and every divisor", "why_tests_cant": "overflow happens only near 2^32", "anchors": ["jaxite/jaxite_cggi/matrix_utils.py: integer_div"]}
{"id": "C12", "title": "Unsigned gadget decomposition recomposes to the rounded value", "statement": "decompose gives digits in [0, base), and recompose(decompose(x)) equals x with the low (total - levels*base_log) bits cleared; with full levels it is x.", "quantifier": "every 32-bit x, every base and number of levels", "why_tests_cant": "all 2^32 inputs and all parameters", "anchors": ["jaxite/jaxite_cggi/decomposition.py: decompose, recomposition_summands, recompose"]}
{"id": "C13", "title": "Signed gadget decomposition recomposes within the truncation error and has small digits", "statement": "signed_decomposition(x) yields digits d_i with |sum_i d_i * 2^(32 - i*base_log) - x| (mod 2^32) bounded by the truncated part, exactly x when levels*base_log = 32, and each digit lies in [-B/2, B/2) (as documented).", "quantifier": "every 32-bit x; every base with base_log dividing 32; every number of levels", "why_tests_cant": "the carry chain makes rare digit patterns that random tests miss", "anchors": ["jaxite/jaxite_cggi/decomposition.py: signed_decomposition, decompose_rlwe_ciphertext"]}
{"id": "C14", "title": "Toeplitz polynomial multiplication is multiplication mod X^N+1", "statement": "toeplitz(p) applied to q, and toeplitz_poly_mul, poly_dot_product and the polymul kernels built on them give the coefficients of p*q (or the sum of products) modulo X^N + 1 and modulo 2^32.", "quantifier": "every degree, all coefficient vectors", "why_tests_cant": "quantifies over all degrees and coefficients", "anchors": ["jaxite/jaxite_cggi/matrix_utils.py: toeplitz, toeplitz_poly_mul, poly_dot_product", "jaxite/jaxite_cggi/polymul_kernel.py: fallback_vector_matrix_polymul, negacyclic_vector_matrix_polymul"]}
{"id": "C15", "title": "Byte-split matrix products equal the 32-bit product", "statement": "i32_as_u8_matmul, the hpmatmul family and the TPU byte-decomposed kernels equal the ordinary integer matrix product modulo 2^32, and (for the float-accumulated kernel) under the stated magnitude bound no rounding occurs.", "quantifier": "all matrices of all shapes", "why_tests_cant": "overflow/precision loss only shows for extreme entries and large contraction sizes", "anchors": ["jaxite/jaxite_cggi/matrix_utils.py: i32_as_u8_matmul, hpmatmul_*, chunk_decomposition, rechunkify, smul_as_dense_gemv_bat", "jaxite/jaxite_cggi/polymul_kernel.py: _i32_matmul_unreduced, bat_matmul, i32_matmul"]}
{"id": "C16", "title": "monomial_mul multiplies by X^k in the negacyclic ring for every k", "statement": "monomial_mul(p, k) is p*X^k mod X^N+1 for every k >= 0 and, through uint32 wrap-around, for negative k when 2N divides 2^32; scale_by_x_power_n_minus_1 is multiplication by X^k - 1; both have period 2N in k.", "quantifier": "every degree N (power of two where needed), every polynomial, every exponent", "why_tests_cant": "the sign logic has 2N cases for each N", "anchors": ["jaxite/jaxite_cggi/matrix_utils.py: monomial_mul, scale_by_x_power_n_minus_1, x_power_n_minus_1"]}
{"id": "C17", "title": "RLWE decryption inverts encryption coefficient-wise", "statement": "The phase of an RLWE encryption is message + error (mod 2^32) in every coefficient, for every key, mask and error; decryption returns message + error.", "quantifier": "every dimension, degree, key, mask, message, error", "why_tests_cant": "random inputs; all of them", "anchors": ["jaxite/jaxite_cggi/rlwe.py: jit_encrypt, decrypt"]}
{"id": "C18", "title": "Sample extraction returns an LWE encryption of the constant coefficient", "statement": "sample_extract(ct) decrypted with the flattened RLWE key has phase equal to the constant coefficient of the RLWE phase of ct.", "quantifier": "all RLWE ciphertexts, keys, dimensions and degrees", "why_tests_cant": "an index off by one shows only for structured inputs; claim is for all", "anchors": ["jaxite/jaxite_cggi/bootstrap.py: sample_extract", "jaxite/jaxite_cggi/rlwe.py: flatten_key"]}
{"id": "C19", "title": "Key switching preserves the phase up to an explicit error", "statement": "switch_key(ct, ksk) under the new key has phase = phase of ct under the old key + (sum of digit*key-errors) + (decomposition error * key), with an explicit worst-case bound.", "quantifier": "all ciphertexts, keys, key-switching keys generated by gen_key with any randomness", "why_tests_cant": "the noise bound is a worst-case claim", "anchors": ["jaxite/jaxite_cggi/key_switch.py: gen_key, jit_switch_key"]}
{"id": "C20", "title": "External product multiplies phases up to an explicit error", "statement": "The RLWE phase of external_product(RGSW(m), ct) equals m * phase(ct) + error, where the error is the sum of digit polynomials times the row errors plus m times the decomposition rounding error, with explicit bound; an RGSW encryption decrypts to its message.", "quantifier": "all RGSW ciphertexts produced by rgsw.encrypt with any randomness, all RLWE ciphertexts", "why_tests_cant": "worst-case claim over all randomness", "anchors": ["jaxite/jaxite_cggi/rgsw.py: jit_encrypt, decrypt", "jaxite/jaxite_cggi/bootstrap.py: external_product"]}
{"id": "C21", "title": "CMUX selects", "statement": "cmux(C, d0, d1) has phase phase(d0) if C encrypts 0 and phase(d1) if C encrypts 1, up to the external-product error of d1 - d0; mismatched shapes are rejected.", "quantifier": "all controls, all pairs of ciphertexts", "why_tests_cant": "as C20", "anchors": ["jaxite/jaxite_cggi/bootstrap.py: cmux"]}
{"id": "C22", "title": "Blind rotation rotates by the phase of the LWE ciphertext", "statement": "blind_rotate(test_poly, (a,b), bsk) has phase X^(-phase) * test_poly plus accumulated error, where phase = b - <a, s> mod 2N; both the plain one-bit-per-step loop and the two-bits-per-step (BMMP) loop; an odd LWE dimension is rejected when BMMP is requested.", "quantifier": "all LWE ciphertexts mod 2N, all binary keys, all dimensions, all randomness in the bootstrapping key", "why_tests_cant": "loop invariant over any number of steps", "anchors": ["jaxite/jaxite_cggi/bootstrap.py: blind_rotate, gen_bootstrapping_key"]}
{"id": "C23", "title": "The test polynomial looks up the right cleartext for every phase in a slot", "statement": "For a table of 2^m values, the constant coefficient of X^(-r)*test_poly equals the encoding of table[j] for every rotation r within half a slot of slot j, including the wrapped half slot of slot 0; wrong table sizes are rejected.", "quantifier": "every table, every encoding/parameters with 2^m | N, every rotation in range", "why_tests_cant": "slot boundaries and the negacyclic wrap are off-by-one territory", "anchors": ["jaxite/jaxite_cggi/test_polynomial.py: _pad_for_error, gen_test_polynomial, identity, trivial_encryption"]}
{"id": "C24", "title": "Bootstrapping evaluates the table and resets the noise", "statement": "bootstrap(ct, test polynomial of table) decrypts to table[m] whenever ct encrypts m in the padded space with noise (including modulus-switch rounding) below half a slot and accumulated blind-rotate/key-switch error below half a message spacing.", "quantifier": "all ciphertexts satisfying the noise condition, all keys and key randomness", "why_tests_cant": "composition of all steps over all randomness", "anchors": ["jaxite/jaxite_cggi/bootstrap.py: bootstrap, jit_bootstrap"]}
{"id": "C25", "title": "Every Boolean gate computes its truth table on ciphertexts", "statement": "For every gate of the API (and_, or_, xor_, nand_, nor_, xnor_, andny_, andyn_, orny_, oryn_, not_, cmux_, lut1, lut2, lut3), decrypt(gate(ciphertexts)) is the Boolean function of the decrypted inputs under the noise condition; lut1 rejects tables outside 0..3.", "quantifier": "all inputs, ciphertexts, keys, noise within bound", "why_tests_cant": "needs all ciphertext/noise values, not fresh encryptions with one seed", "anchors": ["jaxite/jaxite_bool/jaxite_bool.py"]}
{"id": "C26", "title": "batch_vmap equals vmap for every batch size", "statement": "Applying a function through batch_vmap with any batch size that is accepted gives the same result, in the same order, as mapping the function over the whole axis.", "quantifier": "every function, list length and batch size", "why_tests_cant": "remainder handling depends on divisibility", "anchors": ["jaxite/jaxite_cggi/jax_helpers.py: batch_vmap"]}
{"id": "C27", "title": "Random-source helpers produce values in range and the requested shape", "statement": "_normalize_value reduces into the modulus interval; _shape_generator returns exactly the requested shape, consuming values in row-major order; negative dimensions are rejected; CycleRng cycles through its values.", "quantifier": "every shape and value sequence", "why_tests_cant": "all shapes", "anchors": ["jaxite/jaxite_cggi/random_source.py: _normalize_value, _shape_generator, CycleRng"]}
{"id": "C28", "title": "Barrett reduction returns the remainder", "statement": "barrett.modular_reduction(z) with constants precomputed for m returns z mod m for all z < m^2, all intermediate results fitting in 64 bits.", "quantifier": "every modulus below 2^31, every z < m^2", "why_tests_cant": "the failing inputs (if any) are a 2^-20 fraction; the precomputation uses floating point", "anchors": ["jaxite/jaxite_ckks/barrett.py: precompute_barrett_constants, modular_reduction"]}
{"id": "C29", "title": "Ciphertext addition kernels agree with addition mod q", "statement": "AddModularBarrett and AddModularSubtract both return (a+b) mod q entry-wise for reduced inputs, hence agree with each other, and never overflow 32 bits for q < 2^31.", "quantifier": "all reduced inputs, all moduli in range", "why_tests_cant": "all pairs of 31-bit values", "anchors": ["jaxite/jaxite_ckks/add.py: AddSimple, AddModularBarrett, AddModularSubtract"]}
{"id": "C30", "title": "Bit reversal is an involution and a permutation", "statement": "bit_reversal(bit_reversal(x)) = x on n-bit numbers; bit_reversal_array and get_bit_reverse_perm permute without losing entries, and agree with each other; reversal of complement is complement of reversal.", "quantifier": "every width and index", "why_tests_cant": "all widths", "anchors": ["jaxite/jaxite_ckks/rns_utils.py: bit_reversal, bit_reversal_array", "jaxite/jaxite_ckks/math.py: get_bit_reverse_perm", "jaxite/jaxite_ckks/ntt_cpu.py"]}
{"id": "C31", "title": "The CPU NTT is evaluation at odd powers of psi and inverts exactly", "statement": "ntt_negacyclic(a)[i] = sum_j a_j psi^((2i+1)j) mod q (bit-reversed order for the _poly variant); intt(ntt(a)) = a and ntt(intt(b)) = b; pointwise products correspond to multiplication mod X^N+1.", "quantifier": "every power-of-two N, prime-like modulus with a primitive 2N-th root, all coefficient vectors", "why_tests_cant": "all degrees and vectors", "anchors": ["jaxite/jaxite_ckks/ntt_cpu.py"]}
{"id": "C32", "title": "The iterative RNS NTT is inverse-consistent and multiplicative", "statement": "Ntt.backward(Ntt.forward(a)) = a, and forward maps negacyclic products to pointwise products, for the in-place butterfly implementation.", "quantifier": "every power-of-two N >= 2, every prime q = 1 mod 2N, all vectors", "why_tests_cant": "all degrees and vectors", "anchors": ["jaxite/jaxite_ckks/rns.py: Ntt.forward, Ntt.backward"]}
{"id": "C33", "title": "The four-step TPU NTT equals the CPU NTT", "statement": "NTTBarrett.ntt on an (r, c) reshaped input gives the same bit-reversed evaluation vector as ntt_cpu.ntt_negacyclic_poly, and NTTBarrett.intt inverts it.", "quantifier": "every r, c powers of two, modulus in range, all inputs", "why_tests_cant": "layout permutations are checked only for sample sizes in tests", "anchors": ["jaxite/jaxite_ckks/ntt.py: NTTBarrett"]}
{"id": "C34", "title": "root_of_unity returns a primitive root of the requested order", "statement": "If m divides q-1 (q prime) root_of_unity(m, q) has multiplicative order exactly m and is the least such; otherwise it raises; rns._primitive_root likewise has order 2N.", "quantifier": "every prime q, every m", "why_tests_cant": "number-theoretic claim over all primes", "anchors": ["jaxite/jaxite_ckks/math.py: prime_factors, find_generator, root_of_unity", "jaxite/jaxite_ckks/rns.py: _primitive_root, _mod_exp"]}
{"id": "C35", "title": "CRT reconstruction inverts the residue map", "statement": "reconstruct_crt of the residues of x (0 <= x < Q) is x, and its residues are the given residues; same for jaxite_ec rns_precompute/rns_reconstruct/to_rns.", "quantifier": "all pairwise coprime moduli lists, all residues", "why_tests_cant": "all lists and values", "anchors": ["jaxite/jaxite_ckks/rns_utils.py: reconstruct_crt, compute_q_hat_inv_mod_q", "jaxite_ec/util.py: rns_precompute, rns_reconstruct, to_rns"]}
{"id": "C36", "title": "Approximate basis conversion is off by a small multiple of Q", "statement": "basis_change maps residues of x in basis Q to residues (mod each p_j) of x + u*Q with 0 <= u < number of limbs of Q, the same u for all target moduli.", "quantifier": "all bases, all x, all sizes", "why_tests_cant": "worst-case claim", "anchors": ["jaxite/jaxite_ckks/basis_conversion.py: BasisConversionBarrett", "jaxite/jaxite_ckks/rns_utils.py: compute_q_hat_inv_mod_q, compute_q_hat_mod_p"]}
{"id": "C37", "title": "The basis-aligned byte transformation computes matrix products mod q", "statement": "matmul_bat_einsum with matrices from basis_aligned_transformation is congruent modulo q to the plain matrix product, and its value is below the stated bound so the following Barrett step is exact.", "quantifier": "all matrices/shapes/moduli", "why_tests_cant": "overflow at extremes", "anchors": ["jaxite/jaxite_ckks/bat_utils.py: matmul_bat_einsum, basis_aligned_transformation"]}
{"id": "C38", "title": "Rescaling divides by the dropped modulus with rounding", "statement": "After rescale, each remaining residue represents round(x / q_L) (exactly (x - centered(x mod q_L)) / q_L) for every input.", "quantifier": "all inputs, all modulus chains", "why_tests_cant": "depends on relative size of moduli and centred representatives", "anchors": ["jaxite/jaxite_ckks/rescale.py: Rescale"]}
{"id": "C39", "title": "CKKS encryption then decryption returns message plus the documented noise", "statement": "Decrypt(Encrypt(m)) = m + v*e_pk + e0 + e1*s in the ring, for every randomness; with zero noise it is exactly m; ciphertexts/plaintexts whose moduli are not a prefix of the key moduli are rejected.", "quantifier": "all messages, keys, randomness, modulus lists", "why_tests_cant": "random inputs", "anchors": ["jaxite/jaxite_ckks/encrypt.py", "jaxite/jaxite_ckks/key_gen.py: keygen"]}
{"id": "C40", "title": "Key-switching keys encrypt the scaled source key parts", "statement": "Each part of the key from gen_key_switching_key decrypts under the target key to P * (source key on its own limbs, 0 elsewhere) plus error; the parts partition the limbs.", "quantifier": "all limb counts and dnum, all keys", "why_tests_cant": "partition arithmetic with ceil division has corner cases", "anchors": ["jaxite/jaxite_ckks/key_gen.py: compute_scaled_source_key_partition, gen_key_switching_key"]}
{"id": "C41", "title": "Limb bookkeeping in Mul is a partition with a correct inverse permutation", "statement": "compute_control_indices assigns every limb to exactly one part; restore_index undoes the concatenation order used by the basis extension.", "quantifier": "all level counts, dnum, P sizes", "why_tests_cant": "index bookkeeping over all sizes", "anchors": ["jaxite/jaxite_ckks/mul.py: Mul.compute_control_indices, Mul.precompute_constants"]}
{"id": "C42", "title": "NTT-domain automorphism is the ring automorphism X -> X^g", "statement": "apply_automorphism_ntt(NTT(a), g) = NTT(a(X^g)) for every odd g, although indices are computed in uint32.", "quantifier": "all N, all odd g, all polynomials", "why_tests_cant": "all g and N; wrap-around only for large N", "anchors": ["jaxite/jaxite_ckks/blind_rotate_utils.py: apply_automorphism_ntt"]}
{"id": "C43", "title": "Flipping the evaluation vector is complex conjugation", "statement": "Reversing the bit-reversed NTT vector equals the automorphism X -> X^-1.", "quantifier": "all N, all polynomials", "why_tests_cant": "all N", "anchors": ["jaxite/jaxite_ckks/conjugate.py: Conjugation.conjugate", "jaxite/jaxite_ckks/key_gen.py: gen_conjugate_key"]}
{"id": "C44", "title": "Ciphertext-ciphertext tensor product decrypts to the product", "statement": "tensor_multiply returns three components with c0 + c1 s + c2 s^2 = (a0 + a1 s)(b0 + b1 s) limb by limb, with no 64-bit overflow; plaintext-ciphertext product likewise.", "quantifier": "all ciphertexts and moduli in range", "why_tests_cant": "overflow at extremes", "anchors": ["jaxite/jaxite_ckks/mul.py: Mul.tensor_multiply, MulPlaintextCiphertextBarrett"]}
{"id": "C45", "title": "Key switching / relinearisation preserves the decryption up to explicit noise", "statement": "key_switch(ct, ksk) decrypted under the target key and divided by P equals the decryption of ct under the source key plus an explicit error term.", "quantifier": "all ciphertexts, keys", "why_tests_cant": "composition over all randomness", "anchors": ["jaxite/jaxite_ckks/key_switching.py: KeySwitcher.key_switch", "jaxite/jaxite_ckks/mul.py: Mul.relinearize"]}
{"id": "C46", "title": "CKKS blind-rotation steps select and rotate by key bits", "statement": "The keys for the mux rotation encode s and 1-s bits; each step multiplies the exponent by 5^(a_i s_i); malformed inputs are rejected.", "quantifier": "all rotation amounts and key bits", "why_tests_cant": "all histories of steps", "anchors": ["jaxite/jaxite_ckks/blind_rotate.py", "jaxite/jaxite_ckks/key_gen.py: gen_mux_rotation_key, gen_hmuxrot_key"]}
{"id": "C47", "title": "Centred CRT lift in decoding returns the signed coefficient", "statement": "Decode lifts residues to the unique representative in (-Q/2, Q/2], so encode-side signed coefficients with |x| < Q/2 are recovered.", "quantifier": "all moduli, all signed coefficients", "why_tests_cant": "sign boundary", "anchors": ["jaxite/jaxite_ckks/encode.py"]}
{"id": "C48", "title": "RNS polynomial arithmetic respects forms and rejects incompatible operands", "statement": "to_ntt_form/to_coeffs_form are mutually inverse and idempotent; neg/add/sub/mul agree with ring arithmetic limb by limb; mixing forms, degrees or moduli raises.", "quantifier": "all operation sequences on RnsPolynomial", "why_tests_cant": "all histories", "anchors": ["jaxite/jaxite_ckks/rns.py: RnsPolynomial"]}
{"id": "C49", "title": "Big integers survive chunking", "statement": "array_to_int(int_to_array(x)) = x for every x that fits, larger x is rejected, and each chunk is below 2^base.", "quantifier": "every integer, base and array size", "why_tests_cant": "unbounded integers", "anchors": ["jaxite_ec/util.py: int_to_array, array_to_int, int_to_precomputed_array", "jaxite_ec/algorithm/util.py"]}
{"id": "C50", "title": "Carry propagation terminates and preserves the value", "statement": "The while-loop that propagates carries terminates on every input and yields chunks below 2^16 (2^32) representing the same integer whenever that integer fits in the array.", "quantifier": "every array of every length", "why_tests_cant": "termination for all inputs", "anchors": ["jaxite_ec/finite_field.py: carry_propagation, check_any_chunk_with_carry"]}
{"id": "C51", "title": "Chunked compare, add, subtract and conditional subtract are integer operations", "statement": "compare_u16 has the sign of a-b; add_2u16/add_3u16 add; sub_2u16 subtracts for a >= b; cond_sub_mod_u16 subtracts the modulus iff a >= modulus; cond_sub_2u16 returns a-b mod the modulus.", "quantifier": "all operands in range", "why_tests_cant": "2^384-sized spaces", "anchors": ["jaxite_ec/finite_field.py: compare_u16, add_2u16, add_3u16, sub_2u16, cond_sub_mod_u16, cond_sub_2u16"]}
{"id": "C52", "title": "Chunked multiplication is exact", "statement": "mul_2u16 returns the chunks of a*b for all operands that fit, with no lost carries in any intermediate width.", "quantifier": "all operands", "why_tests_cant": "intermediate overflow only at extremes", "anchors": ["jaxite_ec/finite_field.py: conv_1d_2u16xn, rechunkify, mul_2u16, mul_shift_2u16x2x1"]}
{"id": "C53", "title": "Barrett modular multiplication on chunks is exact for BLS12-377", "statement": "mod_mul_barrett_2u16(a,b) and barrett_reduction_u16x2 return the canonical a*b mod p for all a,b < p.", "quantifier": "all field elements", "why_tests_cant": "2^754 pairs", "anchors": ["jaxite_ec/finite_field.py: mod_mul_barrett_2u16, barrett_reduction_u16x2", "jaxite_ec/util.py: MODULUS_377_INT, MU_377_INT"]}
{"id": "C54", "title": "Lazy modular multiplication stays in range and is congruent", "statement": "mod_mul_lazy_2u16(a,b) is congruent to a*b mod p and below p*2^16 for all a,b < p*2^16 (indeed all 400-bit a, b), so arbitrarily long chains never overflow.", "quantifier": "all operands, chains of any length", "why_tests_cant": "overflow needs adversarial inputs", "anchors": ["jaxite_ec/finite_field.py: mod_mul_lazy_2u16", "jaxite_ec/util.py: construct_lazy_matrix", "jaxite_ec/algorithm/lazy_reduction.py"]}
{"id": "C55", "title": "The three-fold RNS fold is a correct reduction", "statement": "moduli_rns_red_internal_2u16 (and add_sub_rns_var, hardware_friendly_mod_reduce) return a 16-bit value congruent to the input modulo 2^16 - t for every 32-bit input and every t < 256 used.", "quantifier": "all 32-bit inputs", "why_tests_cant": "2^32 inputs x moduli", "anchors": ["jaxite_ec/finite_field.py: moduli_rns_red_internal_2u16, add_sub_rns_var", "jaxite_ec/algorithm/rns_mod_reduce.py: hardware_friendly_mod_reduce"]}
{"id": "C56", "title": "RNS modular reduction by quotient estimation is correct", "statement": "mod_red_rns_2u16 maps the RNS form of c to the RNS form of some c' = c (mod p) with c' < 51000 p whenever c < 0.61 M, and mod_mul_rns_2u16 is congruent to the product.", "quantifier": "all c in range", "why_tests_cant": "estimation error only at extremes", "anchors": ["jaxite_ec/finite_field.py: mod_red_rns_2u16, mod_mul_rns_2u16", "jaxite_ec/util.py: rns_coefficients_precompute"]}
{"id": "C57", "title": "RNS negation represents the negative", "statement": "negate_rns_for_var_add(a) (and the zero-check variant) represents K*p - a in every limb for every a.", "quantifier": "all residue vectors", "why_tests_cant": "fails (if at all) only for special residues", "anchors": ["jaxite_ec/finite_field.py: negate_rns_for_var_add, negate_rns_for_var_add_zero_check", "jaxite_ec/util.py: MODULI_SUB"]}
{"id": "C58", "title": "XYZZ addition and doubling implement the elliptic-curve group law", "statement": "add_general/double_general in XYZZ coordinates represent the group sum A + B for points A != +-B, and the double for points with A + A != 0, of y^2 = x^3 + a x + b, for every representative (zz,zzz); point_add dispatches to them so that it represents the sum of any two points. The Barrett, lazy and RNS implementations represent the same points.", "quantifier": "all fields, curves, points and representatives", "why_tests_cant": "all points", "anchors": ["jaxite_ec/algorithm/elliptic_curve.py: ECCSWeierstrassXYZZ", "jaxite_ec/elliptic_curve.py: padd_barret_xyzz, pdul_barret_xyzz, padd_lazy_xyzz, pdul_lazy_xyzz"]}
{"id": "C59", "title": "Twisted-Edwards addition is complete", "statement": "point_add in extended coordinates computes the sum of any two points of odd order (in particular of the prime-order subgroup) including equal points, inverses and the neutral element; the result satisfies T = XY/Z and Z nonzero; doubling agrees with adding a point to itself. The 25-chunk and RNS implementations represent the same sums.", "quantifier": "all points and representatives", "why_tests_cant": "exceptional cases have measure zero", "anchors": ["jaxite_ec/algorithm/elliptic_curve.py: ECCSTwistedEdwardsExtended", "jaxite_ec/elliptic_curve.py: padd_lazy_twisted, pdul_lazy_twisted, pneg_lazy_twisted, padd_rns_twisted_pack"]}
{"id": "C60", "title": "Pippenger over the twisted curve computes the multi-scalar product", "statement": "bucket accumulation, bucket reduction, batch window summation and window merge together return sum_i k_i P_i for every slice length and parallel factor (dividing the number of points), scalars < 2^(windows*slice), with and without signed digits.", "quantifier": "all lists of scalars and points, all slice lengths and parallel factors", "why_tests_cant": "all lists", "anchors": ["jaxite_ec/pippenger.py: MSMPippengerTwisted, MSMPippengerTwistedSigned, *_twisted", "jaxite_ec/pippenger_rns.py"]}
{"id": "C61", "title": "Pippenger over XYZZ computes the multi-scalar product", "statement": "MSMPippenger (XYZZ coordinates, explicit zero flags) returns sum_i k_i P_i for all scalars and points.", "quantifier": "all lists of scalars and points", "why_tests_cant": "exceptional additions occur on structured inputs only", "anchors": ["jaxite_ec/pippenger.py: MSMPippenger and the non-twisted algorithms", "jaxite_ec/pippenger_rns.py: MSMPippenger"]}
{"id": "C62", "title": "Signed slicing recodes the scalar exactly", "statement": "construct_ba_selection_with_sign yields digits of magnitude at most 2^(k-1) whose signed sum is the scalar; a scalar below 2^(windows*k) is accepted iff it is at most (2^(k-1)-1) * (1 + 2^k + ... + 2^(k*(windows-1))), all others are rejected by the assertion; unsigned slicing yields digits below 2^k whose weighted sum is the scalar.", "quantifier": "all scalars and slice lengths", "why_tests_cant": "carry chains", "anchors": ["jaxite_ec/pippenger.py: construct_ba_selection_with_sign, construct_ba_selection, construct_ba_zero_states_and_selection"]}
{"id": "C63", "title": "Reference field classes (plain, Barrett, Montgomery) compute in GF(p) with canonical values", "statement": "For all operands +,-,*,/ of FiniteFieldElement, FiniteFieldElementBarrett and FiniteFieldElementMontgomery return the canonical representative (in Montgomery form where applicable) of the field result; operands of different primes are rejected.", "quantifier": "all primes and operands", "why_tests_cant": "the corner case a+b = p has probability ~1/p", "anchors": ["jaxite_ec/algorithm/finite_field.py"]}
{"id": "C64", "title": "Pippenger zero flags agree with emptiness", "statement": "construct_ba_zero_states_and_selection / construct_br_zero_states mark a bucket (running sum, window sum) as zero before step i iff no earlier scalar selected it.", "quantifier": "all histories of scalars", "why_tests_cant": "all histories", "anchors": ["jaxite_ec/pippenger.py: construct_ba_zero_states_and_selection, construct_br_zero_states"]}
{"id": "C65", "title": "Twist and untwist are inverse maps between the two curve models", "statement": "untwist(twist(P)) = P wherever both are defined, and twist sends curve points to curve points.", "quantifier": "all points", "why_tests_cant": "all points", "anchors": ["jaxite_ec/algorithm/elliptic_curve.py: twist, untwist"]}
{"id": "C66", "title": "Projective addition and doubling implement the group law", "statement": "add_z2_eq_1 (for A != +-B), add_general (unless A - B has order two) and double_general in projective coordinates represent the group sum; point_add represents the sum of any two points.", "quantifier": "all points, curves", "why_tests_cant": "all points", "anchors": ["jaxite_ec/algorithm/elliptic_curve.py: ECCSWeierstrassProjective"]}
{"id": "C67", "title": "copy(value) of the field classes yields an element with that value", "statement": "For every integer v, e.copy(v) is an element of the same field with value v (reduced / transformed to Montgomery form when requested) and e.copy() equals e; only the constructor and set_value check the range.", "quantifier": "all elements and values", "why_tests_cant": "value 0 is a single falsy corner case", "anchors": ["jaxite_ec/algorithm/finite_field.py: copy, set_value"]}
{"id": "C68", "title": "The special FFT of the CKKS encoder is the canonical embedding", "statement": "fft_special maps a vector to the evaluations of the packed real polynomial at the points zeta^(5^k), zeta a primitive 4n-th root of unity (n slots, degree N = 2n); ifft_special is its two-sided inverse. In particular the index table 5^k mod 4n and the bit reversal are correct for every power of two.", "quantifier": "all sizes 2^t and all complex vectors", "why_tests_cant": "tests run a few sizes and tolerances", "anchors": ["jaxite_ckks/encode.py: fft_special, ifft_special, _bit_reverse_vector"]}
{"id": "C69", "title": "encode and decode are inverse up to rounding", "statement": "decode(encode(slots)) has the length of the slot list and differs from it by at most N * (1/2) / scale per slot, for every list of at most N/2 slots whose scaled coefficients fit the modulus; encode reduces negative coefficients correctly; lists whose length is not representable are rejected as documented.", "quantifier": "all slot vectors, scales, degrees 2^(t+1), moduli chains", "why_tests_cant": "all vectors; wrap-around only near Q/2", "anchors": ["jaxite_ckks/encode.py: encode, decode"]}
{"id": "C70", "title": "Encryption round trip in terms of slots", "statement": "decode(decrypt(encrypt(encode(slots)))) returns the slots up to N * (1/2 + W) / scale where W bounds the encryption noise computed from the bounds of the samples.", "quantifier": "all slots, keys, masks and errors within bounds", "why_tests_cant": "all randomness", "anchors": ["jaxite_ckks/encode.py", "jaxite_ckks/encrypt.py", "jaxite_ckks/key_gen.py"]}
{"id": "C71", "title": "Ring operations act on slots componentwise", "statement": "Multiplication modulo X^N+1 multiplies slots, addition adds them, X -> X^(5^r) rotates them left by r, the generator used by hmuxrot rotates them right, X -> X^-1 conjugates them.", "quantifier": "all integer polynomials, all rotation amounts", "why_tests_cant": "all polynomials", "anchors": ["jaxite_ckks/encode.py", "jaxite_ckks/blind_rotate.py: hmuxrot", "jaxite_ckks/conjugate.py"]}
{"id": "C72", "title": "Homomorphic operations act on slots", "statement": "For ciphertexts that hold encoded slots: decryption and decoding after homomorphic addition, ciphertext multiplication with relinearisation, plaintext multiplication, rotation, conjugation and rescaling return the sums, products, rotated, conjugated and unchanged slots up to N*H/scale with H the explicit noise of the operation.", "quantifier": "all keys, randomness within bounds, ciphertexts and moduli chains of the supported form", "why_tests_cant": "all randomness and messages", "anchors": ["jaxite_ckks/mul.py", "jaxite_ckks/add.py", "jaxite_ckks/blind_rotate.py", "jaxite_ckks/conjugate.py", "jaxite_ckks/rescale.py", "jaxite_ckks/encode.py"]}
{"id": "C73", "title": "The basis-aligned byte matrix product computes modulo any 32-bit modulus", "statement": "hpmatmul_bat_adapt(hpmatmul_offline_compile_bat(A, q), B) is congruent to A B modulo q (hpmatmul_golden) for every modulus 0 < q <= 2^32 and all uint32 matrices; smul_as_dense_gemv_bat ends and returns bytes whose column c is x*256^c modulo q; smul_as_dense_gemv_bat_jax returns the same.", "quantifier": "all matrices, all moduli, any chunk number", "why_tests_cant": "tests use one modulus and random data; carries and termination depend on the data", "anchors": ["jaxite_cggi/matrix_utils.py: smul_as_dense_gemv_bat, smul_as_dense_gemv_bat_jax, rechunkify_after_chunkwise_add, hpmatmul_offline_compile_bat, hpmatmul_bat_adapt, hpmatmul_golden"]}
{"id": "C74", "title": "A whole session of the Boolean API is correct for every behaviour of the random sources", "statement": "client_key_set, server_key_set, encrypt of any inputs, and any sequence of gates, comparisons and table look-ups on the results, run with random sources whose normal samples are bounded and whose key samples are bits: no step raises and decrypt of every value is the Boolean value of the circuit. For the shipped test parameters this holds whenever the rounded normal samples have magnitude at most 10; the shipped 128-bit parameters meet every structural condition.", "quantifier": "all states and behaviours of the random sources, all inputs and circuits", "why_tests_cant": "all randomness; tests run a few seeds", "anchors": ["jaxite_bool/jaxite_bool.py", "jaxite_bool/bool_params.py: get_params_for_test, get_params_for_128_bit_security", "jaxite_cggi/parameters.py", "jaxite_cggi/random_source.py"]}
{"id": "C75", "title": "Parameters accepted by assert_safe_modulus_switch keep the message through the modulus switch", "statement": "If assert_safe_modulus_switch(N, m, n) does not raise, then the modulus switch of a noise-free encryption of v under an n-dimensional key to modulus 2N still decrypts to v.", "quantifier": "all parameters, keys, masks and messages", "why_tests_cant": "the failing masks are rare", "anchors": ["jaxite_cggi/test_utils.py: assert_safe_modulus_switch, MidBootstrapDecrypter", "jaxite_cggi/lwe.py: switch_modulus"]}
{"id": "C76", "title": "The rows of an RGSW encryption carry independent noise per coefficient", "statement": "For every error the caller can pass, the noise polynomials of the rows of rgsw.encrypt (and so of the bootstrapping key) can take every small value in every coefficient; the public key does not determine the secret key up to a few candidates.", "quantifier": "all keys, masks and errors", "why_tests_cant": "functional tests never look at the distribution of the noise", "anchors": ["jaxite_cggi/rgsw.py: encrypt, L126-133, L212-241", "jaxite_cggi/bootstrap.py: gen_bootstrapping_key, L93-96"]}
{"id": "C77", "title": "The CKKS samplers return well-formed samples with full support", "statement": "For every behaviour of the underlying generator: gen_gaussian_poly returns the residues of one integer polynomial with the drawn coefficients, gen_uniform_poly residues below each modulus, gen_sparse_binary the same 0/1 vector of exactly the requested weight in every limb, gen_ternary_poly coefficients in {-1, 0, 1}; every Gaussian and uniform polynomial and every ternary polynomial can occur; impossible weights and zero moduli raise.", "quantifier": "all generator states and behaviours, degrees, moduli", "why_tests_cant": "tests check lengths and a few statistics", "anchors": ["jaxite_ckks/random.py: gen_gaussian_poly, gen_ternary_poly, gen_uniform_poly, gen_sparse_binary"]}
{"id": "C78", "title": "A CKKS session is correct for every behaviour of the random generator", "statement": "keygen, encode, encrypt, decrypt and decode run without raising and return the slots up to N (1/2 + 2NB + B)/scale, where B bounds the rounded normal samples; the secret key is binary, with exactly the requested Hamming weight; evaluation, conjugation and rotation keys are generated with errors within B; gen_cm_keys returns a matrix that encrypts slots 1 on the diagonal and 0 elsewhere; lift_ciphertext keeps the limbs over Q and the message modulo Q and yields a valid ciphertext over PQ.", "quantifier": "all generator behaviours, secret weights, slots, moduli chains", "why_tests_cant": "all randomness", "anchors": ["jaxite_ckks/key_gen.py", "jaxite_ckks/encrypt.py", "jaxite_ckks/encode.py", "jaxite_ckks/blind_rotate_utils.py: lift_ciphertext"]}
{"id": "C79", "title": "Programs over the CKKS package compute on slots", "statement": "Any composition of addition, ciphertext multiplication with relinearisation, plaintext multiplication, rotation, conjugation and rescaling over freshly encrypted inputs, whose operands agree in moduli (and scale, for sums) and whose keys were generated for those moduli, runs without raising; decryption and decoding return the value of the same program on complex slots within an explicitly computed error, provided the computed coefficient bound stays below half the product of the remaining moduli.", "quantifier": "all programs, inputs, keys, randomness within bounds, moduli chains of the supported form", "why_tests_cant": "all programs and all randomness", "anchors": ["jaxite_ckks/add.py", "jaxite_ckks/mul.py", "jaxite_ckks/blind_rotate.py", "jaxite_ckks/conjugate.py", "jaxite_ckks/rescale.py", "jaxite_ckks/key_gen.py", "jaxite_ckks/encode.py"]}
{"id": "C80", "title": "CKKS objects survive the trip through JAX transformations", "statement": "Ciphertexts, keys and kernels passed as arguments of jitted or mapped functions arrive unchanged: jax.tree_util.tree_map(f, x) returns the same nesting, classes and configuration (r, c, degrees, moduli lists, derived moduli lists) with f applied to exactly the array data; flattening then unflattening is the identity on every attribute; two values with equal leaves and equal tree definition are equal, so a compiled function is not reused for another configuration. Every object that the package returns to users can be passed.", "quantifier": "all objects, nestings, leaf functions", "why_tests_cant": "a forgotten or swapped attribute shows only if a later method of the rebuilt object reads it", "anchors": ["jaxite_ckks/types.py", "jaxite_ckks/barrett.py", "jaxite_ckks/add.py", "jaxite_ckks/ntt.py", "jaxite_ckks/basis_conversion.py", "jaxite_ckks/key_switch.py", "jaxite_ckks/conjugate.py", "jaxite_ckks/mul.py: tree_flatten, tree_unflatten", "jaxite_ckks/rescale.py", "jaxite_ckks/blind_rotate.py", "jaxite_ckks/ptct_mul.py"]}
{"id": "C81", "title": "An MSM object can be used again", "statement": "initialize followed by bucket_accumulation, bucket_reduction, (batch_window_summation) and window_merge returns the multi-scalar product of the scalars and points passed to that initialize, whatever was computed with the same object before, and also when bucket_accumulation is called more than once.", "quantifier": "all histories of method calls, scalars, points, slice lengths, parallel factors", "why_tests_cant": "tests build a new object for each run", "anchors": ["jaxite_ec/pippenger.py: MSMPippenger, MSMPippengerTwisted, MSMPippengerTwistedSigned (__init__, initialize, bucket_accumulation, bucket_reduction, batch_window_summation, window_merge)", "jaxite_ec/pippenger_rns.py"]}
{"id": "C82", "title": "Batched point operations act on each point, and batch conversions are faithful", "statement": "padd/pdul/pneg *_pack functions (lazy and Barrett, XYZZ and twisted, and the residue versions that stack all products of a step into one array) on a pack of points return, for every batch size and every content of the other rows, exactly what the one-point formula returns for each point; the batch-first variants agree with them up to the requested axis order; batches of different size raise. int_point_batch_to_jax_point_pack and its inverse keep every coordinate of every point and raise for empty, ragged or too large input; packing, operating and unpacking gives integer coordinates of the group results.", "quantifier": "all batches, chunk contents, points", "why_tests_cant": "the carry loop runs until no row of the batch has a carry, so rows influence how long others are processed; tests use small batches of random points", "anchors": ["jaxite_ec/elliptic_curve.py: *_pack, *_batch_first, padd_rns_*, pdul_rns_*", "jaxite_ec/finite_field.py", "jaxite_ec/util.py: int_point_batch_to_jax_point_pack, jax_point_pack_to_int_point_batch, int_point_batch_to_jax_rns_point_pack, jax_rns_point_pack_to_int_point_batch"]}
{"id": "C83", "title": "The array programs of the MSM classes compute the multi-scalar product", "statement": "MSMPippengerTwisted, MSMPippengerTwistedSigned and MSMPippenger, and the two classes of pippenger_rns.py, taken with their axes (coordinate, window, bucket, chunk), reshapes, transpositions, flips, broadcasts, clamped gathers, dropping scatters and scans, return for all scalars and points the coordinates of sum k_i P_i that the algorithm on points yields; the scan, loop, indexed and masked variants of each step return equal arrays; unequal numbers of points and scalars, empty input, and a point_parallel that does not divide the number of points raise.", "quantifier": "all scalars, points, slice lengths 1..31, parallel factors", "why_tests_cant": "a wrong axis order or an off-by-one in a gather is invisible for symmetric shapes; point_parallel interleaves windows and points in one axis; tests use one size", "anchors": ["jaxite_ec/pippenger.py", "jaxite_ec/pippenger_rns.py", "jaxite_ec/util.py: int_list_to_array, jax_point_pack_to_int_point, jax_rns_point_pack_to_int_point"]}
{"id": "C84", "title": "Operations on point objects return new points and leave their operands alone", "statement": "In every program over ECPoint objects (generate_point, +, <<, copy, convert_to_affine, convert_to_twisted_edwards_affine, convert_from_affine, aliases; exceptions caught), each statement returns a point that depends on the values of its operands only, changes no point that exists, and shares no mutable state with it: a later item assignment, append or set_value on the result does not change the operands. For the twisted class the variables represent the elements of the group that the same statements compute there, and convert_to_affine gives their Weierstrass coordinates.", "quantifier": "all programs, all field elements, all four classes of coordinate systems", "why_tests_cant": "sharing of lists and field elements shows only when a later statement changes one of them; tests use each point once", "anchors": ["jaxite_ec/algorithm/elliptic_curve.py: ECPoint, ECCSWeierstrassAffine, ECCSWeierstrassProjective, ECCSWeierstrassXYZZ, ECCSTwistedEdwardsExtended", "jaxite_ec/algorithm/finite_field.py: set_value, copy"]}
{"id": "C85", "title": "Encoding and decoding in floating-point arithmetic lose no more than a stated amount of precision", "statement": "For every arithmetic whose sums, products, divisions and roots of unity are accurate to given constants (double precision is one), encode succeeds and yields, in every modulus, one integer polynomial whose slot values divided by the scale are the given slots up to an explicit bound; decode returns the slot values of the polynomial a plaintext holds up to an explicit bound; with doubles and at most 2^20 slots the round trip error is at most N/(2*scale) + 80*N*(t+1)*2^-53*(B + 1/scale) for slots of size at most B, N = 2^(t+1). The remainder of the scaled coefficients is exact for coefficients of any size. decode raises OverflowError for a coefficient beyond the doubles and ZeroDivisionError for scale 0. The bound N/(2*scale) of exact arithmetic does not hold with doubles.", "quantifier": "all degrees, moduli, scales, slots and all arithmetics meeting the accuracy contract", "why_tests_cant": "rounding errors grow with the degree, the size of the slots and the scale; tests compare a few vectors with a loose tolerance", "anchors": ["jaxite/jaxite_ckks/encode.py: _roots, fft_special, fft_special_inv, Encode.encode, Decode.decode"]}
{"id": "C86", "title": "Rescaling a ciphertext object has the documented effect on every element, and objects of other moduli are refused", "statement": "For a ciphertext of any number of elements with one limb for each modulus of the kernel, rescale replaces the data in place by one limb for each remaining modulus, every element being the old one divided by the dropped moduli with rounding, and the moduli attribute by the remaining moduli; rescaling by a+b moduli equals rescaling by a and then by b with the kernel of the remaining moduli. An object whose limbs do not belong to the moduli of the kernel (for example the result of the same kernel) is refused and left as it was.", "quantifier": "all chains of the supported form, numbers of rescales and elements, ciphertext data of every shape", "why_tests_cant": "whether a mismatch raises depends on broadcasting rules and on the number of limbs: small chains behave differently from long ones", "anchors": ["jaxite/jaxite_ckks/rescale.py: Rescale.precompute_constants, Rescale.rescale", "jaxite/jaxite_ckks/ntt.py: NTTBarrettConstants.slice_moduli"]}
{"id": "C87", "title": "A whole CKKS session in double precision returns the slots of the program within a computable bound", "statement": "For every behaviour of the random generator key generation succeeds; then encoding (in doubles), encrypting any number of inputs, running any program of additions, products, plaintext products, rotations, conjugations and rescalings that fits the moduli and the keys, decrypting and decoding (in doubles, with a scale that may be off by a relative delta) succeed, and each slot of the result is within decErr + (1 + delta) err + delta mag of the value of the program on the slots. For a program that returns its input the bound is N((1/2+W)/scale + 80(t+1)2^-53 (B + ...)).", "quantifier": "all generators within their ranges, all programs, inputs, scales and levels, all rounding behaviours within the accuracy contract of C85 (met by doubles)", "why_tests_cant": "the tests compare a few random vectors with a hand-picked tolerance; the errors of rounding, of the noise and of the wrong final scale add up over all inputs", "anchors": ["jaxite/jaxite_ckks/encode.py: Encode.encode, Decode.decode", "jaxite/jaxite_ckks/encrypt.py: Encrypt.encrypt, Decrypt.decrypt", "jaxite/jaxite_ckks/key_gen.py: keygen", "jaxite/jaxite_ckks/mul.py", "jaxite/jaxite_ckks/blind_rotate.py", "jaxite/jaxite_ckks/conjugate.py", "jaxite/jaxite_ckks/rescale.py"]}
{"id": "C88", "title": "The gadget matrix undoes inverse_gadget up to the omitted levels", "statement": "For decomposition parameters accepted by gadget_matrix and a vector with entries in [-1/2, 1/2), inverse_gadget(v).dot(gadget_matrix.T) equals v up to the precision of the kept levels, and equals v where all levels are kept; the digits are below the base.", "quantifier": "all vectors, bases, numbers of levels and bit lengths up to 32", "why_tests_cant": "the only test keeps all levels and positive entries away from zero", "anchors": ["jaxite/jaxite_cggi/decomposition.py: gadget_matrix, inverse_gadget"]}
{"id": "C89", "title": "Ciphertext objects that do not belong together are refused, the others are multiplied, added and decrypted correctly", "statement": "On ciphertext, plaintext and key objects as the API takes them (arrays of any number of elements, any degree and any number of limbs, with their moduli): tensor_multiply, relinearize, the plaintext products, add and decrypt return what they promise when the operands belong together, and raise an exception when they do not (other moduli, other degree, missing or superfluous elements).", "quantifier": "all objects of all shapes and moduli, all keys and secrets", "why_tests_cant": "the tests use operands that fit; shapes broadcast and indices are clamped without an exception", "anchors": ["jaxite/jaxite_ckks/mul.py: MulPlaintextCiphertextSimple, MulPlaintextCiphertextBarrett, Mul.tensor_multiply, Mul.relinearize", "jaxite/jaxite_ckks/add.py: AddModularSubtract", "jaxite/jaxite_ckks/encrypt.py: Decrypt"]}
{"id": "C90", "title": "The reference RNS modular multiplication is right for every draw of its random numbers", "statement": "rns_mod_reduce returns, for every row, an integer below 51000 q that is congruent to the product modulo q whenever the product is below 0.61 times the overall modulus; and running the file as a script raises no assertion whatever numbers in [0, q] are drawn: the moduli and the correction row are the literal ones and the results are the squares modulo q.", "quantifier": "all target moduli q with 51000 q <= M, all numbers of rows, all residues; all draws of the script", "why_tests_cant": "the script checks 1024 random squares; the quotient estimation is off only at extremes, and its table is computed with floating-point division", "anchors": ["jaxite_ec/algorithm/rns_mod_reduce.py: rns_coefficients_precompute, rns_mod_reduce, rns_reconstruct, main"]}
{"id": "C91", "title": "A Mul kernel with injected or shared sub-kernels relinearises like a Mul kernel of its own", "statement": "Whatever basis-conversion kernel, transform kernels and factory are given to Mul, and whatever other Mul kernels are constructed before and afterwards (also with some of the same objects, also unsuccessfully), after precompute_constants returned relinearize gives on all ciphertexts and keys what a Mul kernel constructed alone without injected objects gives, or raises the same exception.", "quantifier": "all sequences of constructions with all injected objects and parameters, all ciphertexts and keys", "why_tests_cant": "the tests inject objects into a single kernel; the failures need the history of the shared objects", "anchors": ["jaxite/jaxite_ckks/mul.py: Mul.__init__, Mul.precompute_constants, Mul.relinearize", "jaxite/jaxite_ckks/basis_conversion.py: BasisConversionBarrett.precompute_constants", "jaxite/jaxite_ckks/ntt.py: NTTBarrettConstants.slice_moduli"]}
{"id": "C92", "title": "batch_vmap on arrays and pytrees is vmap, whatever the batch size", "statement": "batch_vmap(f, in_axes, out_axes, batch_size=b)(*args) returns, for every b of at least 1, every batch dimension (also 0 and not divisible by b), every choice of axes (negative ones too, a different one for each leaf, None for arguments passed whole) and every out_axes, exactly what jax.vmap(f, in_axes, out_axes)(*args) returns: the result for the parts of the arguments at place k stands at place k of the requested axis; and it raises when jax.vmap does.", "quantifier": "all functions, argument structures, ranks, shapes, axes and batch sizes", "why_tests_cant": "the tests call it with two or three arguments of rank one or two; the dropped arguments need an in_axes of the wrong length", "anchors": ["jaxite/jaxite_cggi/jax_helpers.py: batch_vmap, _tree_map_multi_output, _lax_map"]}
{"id": "C93", "title": "The modulus switch keeps the message for all but a computable small fraction of masks", "statement": "Take an LWE ciphertext whose mask is uniform, as encrypt draws it, and whose body makes it an encryption of v with noise at most B. The fraction of masks for which switch_modulus to 2N changes the decoded message (and for which the bootstrap can return anything else than table[v] with its stated noise bound) is at most 2 exp(-6 T^2 / H), where H is the number of ones of the key and T the room, in units of the new modulus, left by half a message step minus B, half a unit and the rounding bias H/2. For all parameters that assert_safe_modulus_switch accepts with small noise this is at most 2 exp(-6 (sqrt(1+n) - 3/4)^2 / n); for the production parameters and noise up to 2^19 it is at most 1/750 for every key, 1/300000 for keys with at most 440 ones, and below one in a million when key and mask are drawn together.", "quantifier": "all keys, messages, dimensions, degrees, noises that may depend on the mask; counted over all masks", "why_tests_cant": "a failure rate of one in thousands of masks cannot be established by running a few, and the bound is over all keys", "anchors": ["jaxite/jaxite_cggi/lwe.py: switch_modulus", "jaxite/jaxite_cggi/test_utils.py: assert_safe_modulus_switch, MidBootstrapDecrypter", "jaxite/jaxite_cggi/bootstrap.py: bootstrap"]}
{"id": "C94", "title": "The TPU kernels give the exact product in whatever order the device accumulates", "statement": "The kernels convert bytes and digits to bfloat16 and let the matrix unit add the products in float32, in an order that no document fixes. For every order of accumulation negacyclic_vector_matrix_polymul returns, for every call that its check decomposition_log_base < 8 accepts with digits as the decomposition produces them, exactly the vector-matrix product modulo X^N + 1; i32_matmul returns the product modulo 2^32; and a whole session on a TPU returns the bit that the circuit has on the cleartext.", "quantifier": "all orders of accumulation (any tree of additions over the products), all lengths, digits, matrices", "why_tests_cant": "a test runs on one device with one order of accumulation; rounding appears only when the partial sums exceed 2^24", "anchors": ["jaxite/jaxite_cggi/polymul_kernel.py: _i32_matmul_unreduced_CGGI, i32_matmul_unreduced, negacyclic_vector_matrix_polymul"]}
{"id": "C95", "title": "The byte-expanded kernel is right for every number of rows", "statement": "negacyclic_vector_matrix_polymul_bat returns the vector-matrix product modulo X^N + 1 for every number of rows of the vector (rows of the RGSW ciphertext: the RLWE dimension plus one, times the number of decomposition levels), in whatever order the Pallas grid runs its steps, and whatever the memory that Pallas allocates for its output holds.", "quantifier": "all numbers of rows, orders of the grid steps, initial memory contents, vectors and matrices", "why_tests_cant": "the kernel runs on TPUs only, the tests use 18 rows, and uninitialised memory can hold the right values by chance", "anchors": ["jaxite/jaxite_cggi/polymul_kernel.py: negacyclic_vector_matrix_polymul_bat"]}
{"id": "C96", "title": "Ciphertexts hide the encrypted bits", "statement": "An attacker who chooses pairs of bits one after the other, seeing the ciphertexts so far, and receives encryptions by jaxite_bool.encrypt of either always the first or always the second bits under a fresh key, cannot tell which better than they can tell LWE samples from uniform vectors. The same holds when they first receive the key-switching key, for whichever key is switched from.", "quantifier": "all adaptive attackers, numbers of ciphertexts, dimensions, distributions of the key and of the error, decomposition parameters and keys switched from", "why_tests_cant": "secrecy is a statement about all attackers and about distributions; every functional test passes for an encryption without mask, without noise, or with the same mask twice", "anchors": ["jaxite/jaxite_bool/bool_encoding.py: encrypt", "jaxite/jaxite_cggi/lwe.py: encrypt", "jaxite/jaxite_cggi/lwe.py: jit_encrypt", "jaxite/jaxite_cggi/key_switch.py: gen_key", "jaxite/jaxite_cggi/random_source.py: SystemRandomSource"]}
{"id": "C97", "title": "CKKS ciphertexts hide the plaintexts", "statement": "An attacker who sees the public key of keygen, chooses pairs of plaintexts one after the other, seeing the ciphertexts so far, and receives encryptions by Encrypt.encrypt of either always the first or always the second plaintexts, cannot tell which better than they can tell ring-LWE samples (one for the key, two per ciphertext) from uniform pairs.", "quantifier": "all adaptive attackers, numbers of ciphertexts, degrees that are powers of two, lists of suitable primes, distributions of secrets and errors (dense and sparse keys)", "why_tests_cant": "secrecy is a statement about all attackers and about distributions; every functional test passes for an encryption that leaves out an error polynomial or uses v = 0", "anchors": ["jaxite/jaxite_ckks/encrypt.py: Encrypt.encrypt", "jaxite/jaxite_ckks/key_gen.py: keygen", "jaxite/jaxite_ckks/random.py: RandomSource"]}
{"id": "C98", "title": "The two secret keys of a client are independent", "statement": "ClientKeySet draws the LWE key and the RLWE key independently of each other: every pair of binary keys is equally likely, whichever two random sources the documented calls of bool_params make.", "quantifier": "all parameters, generators, seeds, and both ways of passing random sources (one object or two)", "why_tests_cant": "equal seeds give no wrong result anywhere: all gates decrypt correctly, and that one key is the beginning of the other shows only when the two are compared", "anchors": ["jaxite/jaxite_bool/jaxite_bool.py: ClientKeySet", "jaxite/jaxite_bool/bool_params.py: get_lwe_rng_for_128_bit_security", "jaxite/jaxite_bool/bool_params.py: get_rlwe_rng_for_128_bit_security", "jaxite/jaxite_cggi/random_source.py: PseudorandomSource"]}
{"id": "C99", "title": "Key switching, conjugation and blind rotation act on ciphertext objects as on the polynomials they hold", "statement": "key_switch, conjugate, lift_ciphertext, hmuxrot, brot_mux and brot_cm, called with arrays of shape (elements, degree, limbs), either return an object of the right moduli and shape that represents the documented value (the product with P, m(X^-1), the same message modulo Q with all moduli, the muxed rotation, the rotation by the encrypted bits, the selected plaintext), up to the noise of C43, C45 and C46, or raise when the arrays or the moduli do not fit the precomputed constants.", "quantifier": "all objects, array shapes, keys, moduli, numbers of parts, numbers of bits and plaintexts", "why_tests_cant": "shape errors, clamped indices and broadcasts show only for objects that tests do not build, and a ciphertext over the moduli in another order gives a plausible wrong value without an exception", "anchors": ["jaxite/jaxite_ckks/key_switching.py: KeySwitcher.key_switch", "jaxite/jaxite_ckks/conjugate.py: Conjugation.conjugate", "jaxite/jaxite_ckks/blind_rotate.py: BlindRotation.precompute_constants", "jaxite/jaxite_ckks/blind_rotate.py: BlindRotation.hmuxrot", "jaxite/jaxite_ckks/blind_rotate.py: BlindRotation.brot_mux", "jaxite/jaxite_ckks/blind_rotate.py: BlindRotation.brot_cm", "jaxite/jaxite_ckks/blind_rotate_utils.py: lift_ciphertext"]}
{"id": "C100", "title": "Big integers compute as the integers they hold", "statement": "GMPBigInteger is a faithful integer type: +, -, *, &, << and >> give the integer result for every big integer or int operand, on either side; / and % are floor quotient and remainder; ** and three-argument pow are the (modular) power, with inverses for negative exponents; the comparisons are those of the integers; ceil_log2 is the rounded-up logarithm; any other operand, a zero divisor or a negative shift raises.", "quantifier": "all integers of any size and sign, all operand types, all operators", "why_tests_cant": "the signs of divisors, negative shifts and exponents and operand types form a table of cases on unbounded values, of which tests try a few positive ones", "anchors": ["jaxite_ec/algorithm/big_integer.py: GMPBigInteger"]}
{"id": "C101", "title": "A batch of products is relinearised entry by entry", "statement": "Mul.relinearize called with data of shape (*lead, elements, degree, limbs), for any leading axes, returns an array of the same leading axes whose entry b is the relinearisation of the ciphertext at entry b alone, hence decrypts to the product with the noise bound of C45, and does not mix entries; data or keys that do not fit the kernel raise an exception.", "quantifier": "all leading axes and batch sizes, all ciphertexts, keys, moduli, degrees and numbers of parts", "why_tests_cant": "the batched test uses two equal ciphertexts, so it cannot see entries being mixed; and shapes that do not fit are broadcast or filled without an exception only for particular lengths", "anchors": ["jaxite/jaxite_ckks/mul.py: Mul.relinearize"]}
{"id": "C102", "title": "The low-level TFHE functions are correct with fresh randomness, for every behaviour of the source", "statement": "rlwe.encrypt and rgsw.encrypt draw exactly the documented numbers of uniform and then normal values, use them in row-major order as masks and noise, and are inverted by rlwe.decrypt and rgsw.decrypt; external_product of fresh encryptions decrypts to the product; blind_rotate with a fresh bootstrapping key brings the coefficient with the encrypted number J to the constant term; switch_key with a fresh key keeps the message. With the test-only sources the masks are public constants.", "quantifier": "all random sources and states with bounded normal values, all keys, messages, dimensions, degrees and decompositions", "why_tests_cant": "tests use sources with fixed seeds or constant values; a wrong order of the draws or a reused sample only shows up for other sources", "anchors": ["jaxite/jaxite_cggi/rlwe.py: encrypt", "jaxite/jaxite_cggi/rgsw.py: encrypt", "jaxite/jaxite_cggi/bootstrap.py: external_product, blind_rotate", "jaxite/jaxite_cggi/key_switch.py: gen_key, switch_key", "jaxite/jaxite_cggi/random_source.py: NormalOnlyRng, ConstantUniformRng"]}
{"id": "C103", "title": "Uniform samples, secret keys and masks are uniform", "statement": "If Python chooses uniformly, every source the library hands out returns each uint32 array of the requested shape from uniform with the same probability and each array of bits from sk_uniform with the same probability; hence lwe.gen_key returns each binary key with the same probability, and the mask of a fresh ciphertext has the same distribution for every Boolean, key and noise.", "quantifier": "all shapes, arrays, bounds, keys and Booleans", "why_tests_cant": "a bias of one value in 2^32 cannot be seen in any number of samples a test can draw", "anchors": ["jaxite/jaxite_cggi/random_source.py: SystemRandomSource, PseudorandomSource, VARYING_MAGNITUDE_TEST_RNGS", "jaxite/jaxite_bool/bool_params.py: get_lwe_rng_for_128_bit_security, get_rlwe_rng_for_128_bit_security, get_rng_for_test", "jaxite/jaxite_cggi/lwe.py: gen_key, encrypt"]}
{"id": "C104", "title": "Printed polynomials, ciphertexts and look-up tables show the object", "statement": "str of an RLWE plaintext or ciphertext or of an RGSW ciphertext determines all coefficients (and the numbers of rows), and depends on nothing else; str of a look-up table built from a function has one line per assignment, in counting order, with the arguments in the order of the call and the value of the function; str of a table determines its number of inputs and values, repr both attributes.", "quantifier": "all polynomials, ciphertexts, tables and Boolean functions", "why_tests_cant": "injectivity is a statement about all pairs of objects", "anchors": ["jaxite/jaxite_bool/lut.py: LookUpTable.__str__, __repr__", "jaxite/jaxite_cggi/rlwe.py: RlwePlaintext.__str__, RlweCiphertext.__str__", "jaxite/jaxite_cggi/rgsw.py: RgswCiphertext.pretty_print_polynomial, __str__"]}
{"id": "C105", "title": "Polynomial products do not depend on the device", "statement": "On every device the polynomial product (toeplitz_poly_mul) and the vector-matrix product of the bootstrapping return a value, the same one: the product modulo X^n+1; get_tpu_version returns the version of every TPU and -1 on all other devices.", "quantifier": "all device kinds, all polynomials and matrices", "why_tests_cant": "a test runs on one device kind; others are only reachable as strings", "anchors": ["jaxite/jaxite_cggi/jax_helpers.py: get_tpu_version", "jaxite/jaxite_cggi/matrix_utils.py: toeplitz_poly_mul", "jaxite/jaxite_cggi/polymul_kernel.py: negacyclic_vector_matrix_polymul"]}
{"id": "C106", "title": "The CPU transforms do not depend on earlier calls", "statement": "The permutations that ntt_cpu.py keeps in a module-level dictionary are never visible: in every sequence of calls of ntt_negacyclic_poly and intt_negacyclic_poly, with any degrees, moduli and arguments and with exceptions in between, each call has the outcome of a first call; for prime moduli the forward transform evaluates every residue column and the inverse returns the reduced coefficients, after any calls.", "quantifier": "all sequences of calls, all polynomials in RNS form", "why_tests_cant": "the dictionary outlives the test cases; histories are unbounded", "anchors": ["jaxite/jaxite_ckks/ntt_cpu.py: _PERM_CACHE, _get_bit_reversal_perm, ntt_negacyclic_poly, intt_negacyclic_poly"]}
{"id": "C107", "title": "to_tuple freezes nested constants without changing them", "statement": "For every nesting of numbers, lists, tuples and arrays, to_tuple returns a value that Python can hash (numbers and tuples only), with the same number at every index path and the same length at every place; applied again it changes nothing; it raises, with RecursionError, exactly when a non-empty string occurs anywhere.", "quantifier": "all nested values", "why_tests_cant": "the nesting is unbounded", "anchors": ["jaxite_ec/util.py: to_tuple", "jaxite_ec/algorithm/rns_mod_reduce.py: to_tuple"]}
{"id": "C108", "title": "Profiling runs the tasks and returns", "statement": "profile_jax_functions runs each task once and in order, waits for the results, reports the first exception of a task and returns.", "quantifier": "all lists of tasks, with arbitrary effects and exceptions", "why_tests_cant": "no test calls it: the calls are in comments", "anchors": ["jaxite_ec/util.py: profile_jax_functions"]}
{"id": "C109", "title": "The TFHE functions do not depend on what else the program imports", "statement": "A program that imports the CKKS or the elliptic-curve package, which enable 64-bit types for the whole process, gets the same results from the TFHE functions: the same polynomial products, RLWE and RGSW encryptions, decryptions, bootstrapping keys, external products, rotation steps, blind rotations, bootstrappings, server keys and whole programs of gates.", "quantifier": "all import histories, devices, degrees, inputs, keys and samples", "why_tests_cant": "each test binary imports one package; the flag is set by an import", "anchors": ["jaxite/jaxite_cggi/matrix_utils.py: toeplitz_poly_mul", "jaxite/jaxite_ckks/ntt.py: jax_enable_x64", "jaxite_ec/finite_field.py: jax_enable_x64"]}
{"id": "C110", "title": "Barrett reduction works with the modules it imports", "statement": "A program that imports barrett.py and add.py, and nothing else, gets from modular_reduction and AddModularBarrett.add the residue that their documentation promises: z mod q for z below q squared, and (a + b) mod q whenever a + b is below q squared and fits 32 bits.", "quantifier": "all import histories, moduli below 2^31 and inputs", "why_tests_cant": "the tests enable 64-bit types themselves before they call the functions", "anchors": ["jaxite/jaxite_ckks/barrett.py: precompute_barrett_constants, modular_reduction", "jaxite/jaxite_ckks/add.py: AddModularBarrett"]}
{"id": "C111", "title": "The hpmatmul products are exact", "statement": "hpmatmul_conv_adapt_outer_product, hpmatmul_conv_adapt_conv and hpmatmul_bat_adapt return the product of the matrices (modulo q for the last) in a process that can also multiply polynomials with the same module.", "quantifier": "all import histories, shapes and entries", "why_tests_cant": "the flag is process-wide and no test of the module sets it", "anchors": ["jaxite/jaxite_cggi/matrix_utils.py: hpmatmul_conv_adapt_outer_product, hpmatmul_conv_adapt_conv, hpmatmul_bat_adapt"]}
{"id": "C112", "title": "An RNS polynomial survives the conversion to a JAX array and back", "statement": "For every RnsPolynomial p built with the functions of rns.py, gen_rns_polynomial_from_jnp_array(p.degree, p.to_jnp_array(), p.moduli, p.is_ntt) is p.", "quantifier": "all degrees, lists of moduli, sequences of operations and import histories", "why_tests_cant": "no test calls either function, and the result depends on a process-wide flag", "anchors": ["jaxite/jaxite_ckks/rns.py: RnsPolynomial.to_jnp_array, gen_rns_polynomial_from_jnp_array"]}
