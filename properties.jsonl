{"id": "C01", "title": "Field addition, subtraction, doubling and negation are exact", "statement": "For any two field elements (of Fp, and of Fq), a+b, a-b, -a and a.double() return the element whose integer value is the sum, difference, negation or double modulo the field's prime, and the returned value is again fully reduced, so it can be fed to any other operation.", "quantifier": "every pair of field elements of either field", "why_tests_cant": "The carry/borrow chains have 2^508 input pairs; failures hide at carry boundaries that random tests hit with probability 2^-64.", "anchors": ["src/fields/fp.rs: Fp::add, Fp::sub, Fp::neg, Fp::double", "src/fields/fq.rs: the same functions", "src/util.rs: adc, sbb"]}
{"id": "C02", "title": "Field multiplication and squaring are exact", "statement": "For any two field elements, a*b returns the element whose value is the product modulo the prime, a.square() equals a*a, and both results are fully reduced.", "quantifier": "every pair of field elements of either field", "why_tests_cant": "Montgomery reduction drops carries it believes impossible; only a proof over all inputs shows no input makes one of them non-zero.", "anchors": ["src/fields/fp.rs: Fp::mul, Fp::square, Fp::montgomery_reduce", "src/fields/fq.rs: the same functions", "src/util.rs: mac, adc"]}
{"id": "C03", "title": "Integer conversions reduce every integer correctly", "statement": "from_raw on any four 64-bit words, from_u64, from_u128, From<u64>, and from_bytes_wide on any 64 bytes return the element congruent to the given little-endian integer, also when the integer exceeds the modulus.", "quantifier": "every 256-bit integer, every u64, every u128, every 512-bit integer", "why_tests_cant": "The interesting inputs are near multiples of the modulus in a 2^512 space.", "anchors": ["src/fields/fp.rs: from_raw, from_u64, from_u128, from_bytes_wide, from_u512, From<u64>", "src/fields/fq.rs: the same functions"]}
{"id": "C04", "title": "Field encodings are canonical and round-trip", "statement": "to_bytes returns the 32-byte little-endian encoding of the unique representative below the modulus; from_bytes accepts a byte string exactly when it encodes an integer below the modulus and then returns that element; so from_bytes(to_bytes(a)) = a, and every accepted string is reproduced by to_bytes.", "quantifier": "every field element and every 32-byte string", "why_tests_cant": "Malleability is a statement about all 2^256 byte strings.", "anchors": ["src/fields/fp.rs: to_bytes, from_bytes", "src/fields/fq.rs: to_bytes, from_bytes"]}
{"id": "C05", "title": "Lower 128 bits are taken from the canonical integer", "statement": "get_lower_128 returns the canonical integer value of the element modulo 2^128.", "quantifier": "every field element", "why_tests_cant": "Must hold for all field elements; verifier challenges are derived from it.", "anchors": ["src/fields/fp.rs: get_lower_128", "src/fields/fq.rs: get_lower_128"]}
{"id": "C06", "title": "Exponentiation is correct for every 256-bit exponent", "statement": "pow and pow_vartime both return the element raised to the 256-bit little-endian exponent, and agree with each other.", "quantifier": "every field element and every 256-bit exponent", "why_tests_cant": "2^510 inputs; an off-by-one in the bit loop only shows on particular bit patterns.", "anchors": ["src/fields/mod.rs: Field::pow, Field::pow_vartime"]}
{"id": "C07", "title": "Inversion returns the inverse exactly for non-zero elements", "statement": "invert returns None for zero and otherwise returns the unique b with a*b = 1.", "quantifier": "every field element", "why_tests_cant": "Relies on primality of the modulus, a fact about all elements at once.", "anchors": ["src/fields/fp.rs: invert", "src/fields/fq.rs: invert"]}
{"id": "C08", "title": "Square root succeeds exactly on squares", "statement": "sqrt returns Some(x) with x*x = a whenever a is a square in the field, and None whenever it is not.", "quantifier": "every field element", "why_tests_cant": "The constant-time Tonelli-Shanks loop has 2^32 possible 2-adic orders of its input; a missed branch affects a vanishing fraction of inputs.", "anchors": ["src/fields/fp.rs: sqrt", "src/fields/fq.rs: sqrt"]}
{"id": "C09", "title": "Batch inversion inverts each non-zero entry in place", "statement": "batch_invert replaces every non-zero entry of the slice by its inverse, leaves zeros untouched, and returns the product of the inverses of the non-zero entries; it never panics.", "quantifier": "every slice length and every arrangement of zeros", "why_tests_cant": "Arbitrary length and arbitrary zero positions.", "anchors": ["src/fields/mod.rs: Field::batch_invert"]}
{"id": "C10", "title": "The declared field constants have the properties the code relies on", "statement": "Both moduli are prime; one() is the multiplicative identity; ALPHA has multiplicative order exactly 2^32; BETA has multiplicative order exactly 3; RESCUE_INVALPHA is the inverse of RESCUE_ALPHA modulo p-1, so x -> x^5 and x -> x^RESCUE_INVALPHA are mutually inverse on the whole field.", "quantifier": "every field element (for the permutation claim); both fields", "why_tests_cant": "Primality and permutation statements quantify over all residues.", "anchors": ["src/fields/fp.rs: MODULUS, R, R2, R3, INV, ROOT_OF_UNITY, BETA, RESCUE_INVALPHA", "src/fields/fq.rs: the same constants"]}
{"id": "C11", "title": "Curve addition, doubling, negation and subtraction implement the group law", "statement": "For any two valid points of Ec0 or Ec1, including the identity, equal points and opposite points, +, -, negation and double return a valid point representing the elliptic-curve group sum, difference, inverse or double.", "quantifier": "every pair of points in every projective representation", "why_tests_cant": "Exceptional cases of addition formulas are exactly what sampling misses; completeness needs the absence of 2-torsion.", "anchors": ["src/curves/ec0.rs: Add, double, Neg, Sub, is_on_curve", "src/curves/ec1.rs: the same"]}
{"id": "C12", "title": "Scalar multiplication is repeated addition", "statement": "point * scalar represents the scalar-fold sum of the point for every point and every scalar, and distributes over point and scalar addition.", "quantifier": "every point and every scalar", "why_tests_cant": "2^254 scalars times 2^254 points.", "anchors": ["src/curves/ec0.rs: Mul", "src/curves/ec1.rs: Mul"]}
{"id": "C13", "title": "The two curves form a cycle of prime order", "statement": "Ec0 over Fq has exactly p points and Ec1 over Fp has exactly q points, so every non-identity point generates the group, scalars of the declared scalar field act faithfully, and no point other than the identity has small order (no cofactor).", "quantifier": "every point of either curve", "why_tests_cant": "Counting the points of a curve over a 255-bit field cannot be tested.", "anchors": ["src/curves/ec0.rs", "src/curves/ec1.rs", "src/curves/mod.rs: Curve::Base, Curve::Scalar"]}
{"id": "C14", "title": "The BETA endomorphism is multiplication by the scalar-field BETA", "statement": "For every point (x,y) of the curve, the point (BETA_base*x, y) equals the point multiplied by BETA_scalar.", "quantifier": "every point of either curve", "why_tests_cant": "The existing test checks the generator only.", "anchors": ["src/curves/ec0.rs: test_endo", "src/fields/fp.rs: BETA", "src/fields/fq.rs: BETA", "src/gadgets/ecc.rs: conditional_endo"]}
{"id": "C15", "title": "Compressed point encodings round-trip and reject invalid strings", "statement": "to_bytes then from_bytes returns an equal point for every point including the identity; from_bytes accepts a 32-byte string only if it is the encoding of a curve point, so distinct accepted strings decode to distinct points.", "quantifier": "every point, every 32-byte string", "why_tests_cant": "Malleability of encodings is a claim over 2^256 strings.", "anchors": ["src/curves/ec0.rs: to_bytes, from_bytes", "src/curves/ec1.rs: to_bytes, from_bytes"]}
{"id": "C16", "title": "Affine coordinates round-trip and off-curve coordinates are rejected", "statement": "get_xy returns None exactly for the identity and otherwise the unique affine coordinates of the point; from_xy accepts (x,y) exactly when it is on the curve (or is (0,0), which denotes the identity) and get_xy(from_xy(x,y)) = (x,y).", "quantifier": "every point, every coordinate pair", "why_tests_cant": "Quantifies over all coordinate pairs.", "anchors": ["src/curves/ec0.rs: get_xy, from_xy", "src/curves/ec1.rs: get_xy, from_xy"]}
{"id": "C17", "title": "Point equality decides equality of group elements", "statement": "P == Q holds exactly when P and Q represent the same point; in particular it is symmetric and the identity equals only itself.", "quantifier": "every pair of points in every projective representation", "why_tests_cant": "Requires every representation of every pair, including the identity on either side.", "anchors": ["src/curves/ec0.rs: ConstantTimeEq, PartialEq", "src/curves/ec1.rs: the same"]}
{"id": "C18", "title": "Multi-exponentiation equals the naive sum", "statement": "multiexp(coeffs, bases) returns sum_i coeffs[i]*bases[i] for every equal-length pair of slices, whatever the number of CPU cores it splits the work over.", "quantifier": "every length, every coefficient and base vector, every number of CPUs", "why_tests_cant": "Window size, number of windows and chunking all depend on the length and the machine.", "anchors": ["src/util.rs: multiexp"]}
{"id": "C19", "title": "FFT computes the discrete Fourier transform for every core count", "statement": "best_fft on a power-of-two-length vector returns the evaluations of the polynomial at the powers of omega; serial and parallel versions agree for every number of cores.", "quantifier": "every vector, every log length, every number of cores", "why_tests_cant": "Schedules and lengths are unbounded.", "anchors": ["src/util.rs: best_fft, serial_fft, parallel_fft"]}
{"id": "C20", "title": "Polynomial multiplication returns the exact product", "statement": "multiply_polynomials returns the coefficient vector of the product of the two polynomials, of length a.len()+b.len()-1, for all non-empty inputs whose product has at most 2^31 coefficients; it panics on empty or larger inputs.", "quantifier": "every pair of coefficient vectors", "why_tests_cant": "Arbitrary lengths and coefficients.", "anchors": ["src/util.rs: multiply_polynomials"]}
{"id": "C21", "title": "Generator collapse folds halves for every core count", "statement": "The generator vector after a round is g_lo[i]*challenge_inv + g_hi[i]*challenge (as coded) for each i, whatever number of threads the work was split over.", "quantifier": "every vector length, every challenge, every number of cores", "why_tests_cant": "Chunking depends on the machine.", "anchors": ["src/util.rs: parallel_generator_collapse"]}
{"id": "C22", "title": "The verifier's short-cut for the folded evaluation vector is exact", "statement": "compute_b(x, u, u_inv) equals the inner product of the vector (1,x,x^2,...,x^(2^k-1)) folded k times with the challenges, and compute_g_coeffs_for_inner_product returns the coefficient vector of the folded generator.", "quantifier": "every k, every point x, every challenge vector", "why_tests_cant": "Unbounded number of rounds.", "anchors": ["src/util.rs: compute_b, compute_g_coeffs_for_inner_product, compute_g_for_inner_product"]}
{"id": "C23", "title": "Short challenges expand to the same scalar natively and in the circuit", "statement": "Multiplying a point in-circuit by a 128-bit challenge with the endomorphism ladder yields the point times get_challenge_scalar(challenge).", "quantifier": "every 128-bit challenge and every point", "why_tests_cant": "2^128 challenges.", "anchors": ["src/util.rs: get_challenge_scalar", "src/gadgets/ecc.rs: multiply_endo", "src/recursion.rs: get_challenge_scalar"]}
{"id": "C24", "title": "Every absorbed element influences the Rescue sponge output", "statement": "Changing any one absorbed field element changes the sponge state from which later outputs are squeezed.", "quantifier": "every input sequence and every position", "why_tests_cant": "A structural claim over all inputs; the existing tests cannot see an ignored position.", "anchors": ["src/rescue.rs: mds_matrix, rescue_f, Rescue::absorb, Rescue::squeeze"]}
{"id": "C25", "title": "The Rescue permutation layer structure", "statement": "The Rescue round function applied by the sponge is a bijection on the state.", "quantifier": "every 13-element state", "why_tests_cant": "Quantifies over p^13 states.", "anchors": ["src/rescue.rs: rescue_f, mds, generate_mds_matrix"]}
{"id": "C26", "title": "The Rescue sponge API behaves as a duplex over the concatenated input for every call sequence", "statement": "For every interleaving of absorb and squeeze calls, outputs depend only on the sequence of calls, never panic or run out: absorbing more than the rate triggers a permutation, squeezing more than the rate triggers a fresh permutation, and a switch from squeezing to absorbing starts a new block.", "quantifier": "every sequence of absorb/squeeze calls", "why_tests_cant": "Unbounded histories.", "anchors": ["src/rescue.rs: Rescue::new, absorb, squeeze, rescue_duplex, pad"]}
{"id": "C27", "title": "Linear combinations evaluate linearly", "statement": "Building a linear combination with any sequence of +, - of variables, scaled variables and other combinations evaluates to the corresponding field expression; the special coefficients Zero/One/NegativeOne behave exactly as 0, 1 and -1 under multiply, negation and doubling.", "quantifier": "every expression and every assignment", "why_tests_cant": "Arbitrary expressions.", "anchors": ["src/circuits.rs: Coeff, LinearCombination"]}
{"id": "C28", "title": "The Basic synthesizer never corrupts earlier wires and keeps gates consistent", "statement": "For every sequence of alloc / alloc_input / multiply / enforce_zero calls, the values assigned to already returned variables never change, distinct allocations return distinct variables, the constant wire is 1, and every filled gate satisfies a*b=c whenever multiply closures supply consistent products.", "quantifier": "every sequence of constraint-system calls", "why_tests_cant": "Unbounded histories of calls.", "anchors": ["src/synthesis.rs: Basic, Synthesizer"]}
{"id": "C29", "title": "is_satisfied answers true exactly when all constraints hold", "statement": "is_satisfied returns Ok(true) exactly if synthesis succeeds, the number of inputs matches and every multiplication gate and every linear constraint (including public input equalities) holds for the synthesized witness.", "quantifier": "every circuit and every input vector", "why_tests_cant": "All circuits.", "anchors": ["src/dev.rs: is_satisfied"]}
{"id": "C30", "title": "The two verifier evaluations of the circuit polynomial agree", "statement": "The vector computed by fixing y and read at x, and the vector computed by fixing x and read at y, are evaluations of one bivariate polynomial s(X,Y) determined by the circuit: evaluating either at the other point gives the same field element.", "quantifier": "every circuit (sequence of backend events), every x and y", "why_tests_cant": "All circuits and all evaluation points.", "anchors": ["src/proofs.rs: SxEval, SyEval, Params::compute_sx, Params::compute_sy"]}
{"id": "C31", "title": "The constraint polynomial vanishes for satisfying assignments and only then", "statement": "The constant coefficient of the combined polynomial t(X,Y) built from an assignment and a circuit is zero as a polynomial in Y exactly when the assignment satisfies every gate and every linear constraint.", "quantifier": "every circuit size, every assignment", "why_tests_cant": "All circuits and assignments.", "anchors": ["src/proofs.rs: Proof::new, Proof::verify", "src/synthesis.rs: Backend"]}
{"id": "C32", "title": "The determinism check detects any difference between two synthesis runs", "statement": "determinism_check succeeds only if both runs issue the same sequence of constraint-system events.", "quantifier": "every circuit, every pair of runs", "why_tests_cant": "All event sequences.", "anchors": ["src/dev.rs: determinism_check"]}
{"id": "C33", "title": "Boolean gadgets are sound and complete", "statement": "AllocatedBit and Boolean gadgets (alloc, xor, and, and_not, nor, not, enforce_equal, sha256_ch, sha256_maj): every satisfying assignment gives the outputs the Boolean function of the inputs, and honest witnesses always satisfy the constraints.", "quantifier": "every mix of constant, negated and allocated operands, every assignment", "why_tests_cant": "Soundness quantifies over all malicious assignments, which tests with honest witnesses never try.", "anchors": ["src/gadgets/boolean.rs"]}
{"id": "C34", "title": "Number gadgets are sound and complete", "statement": "alloc, mul, square, invert, sqrt, rescue_alpha, rescue_invalpha, inputize and Combination arithmetic force the output wire to the named function of the input wires.", "quantifier": "every assignment", "why_tests_cant": "Malicious assignments.", "anchors": ["src/gadgets/num.rs"]}
{"id": "C35", "title": "Bit decomposition determines the bits", "statement": "The 256 bits returned by unpack_fe for a field element are the bits of its canonical integer in every satisfying assignment.", "quantifier": "every field element, every satisfying assignment", "why_tests_cant": "Malicious assignments.", "anchors": ["src/gadgets/boolean.rs: unpack_fe", "src/recursion.rs: get_challenge"]}
{"id": "C36", "title": "32-bit word gadgets compute u32 arithmetic", "statement": "UInt32 alloc, rotr, shr, xor, sha256_maj, sha256_ch and addmany produce wires equal to the corresponding u32 operation (addition modulo 2^32) in every satisfying assignment.", "quantifier": "every operand, every number of operands from 2 to 10, every assignment", "why_tests_cant": "2^(32n) operands and malicious assignments.", "anchors": ["src/gadgets/uint32.rs"]}
{"id": "C37", "title": "64-bit multiply-accumulate gadget", "statement": "UInt64::mul_acc2 returns low and high words with self*b + c + d = low + 2^64*high in every satisfying assignment.", "quantifier": "every operand, every assignment", "why_tests_cant": "2^256 operands.", "anchors": ["src/gadgets/uint64.rs: mul_acc2"]}
{"id": "C38", "title": "The SHA-256 gadget computes SHA-256", "statement": "sha256 returns the FIPS 180-4 digest bits of its input bits for every whole-byte input length and every mix of constant and allocated bits, in every satisfying assignment.", "quantifier": "every message of every byte length", "why_tests_cant": "All messages and assignments.", "anchors": ["src/gadgets/sha256.rs"]}
{"id": "C39", "title": "In-circuit Rescue agrees with native Rescue", "statement": "Absorbing and squeezing the same sequence in the circuit yields wires equal to the native sponge outputs.", "quantifier": "every call sequence, every assignment", "why_tests_cant": "All histories and malicious assignments.", "anchors": ["src/gadgets/rescue.rs", "src/rescue.rs"]}
{"id": "C40", "title": "In-circuit point witnessing, negation, endomorphism and doubling are sound", "statement": "CurvePoint::witness only admits curve points or the identity; conditional_neg, conditional_endo, double and double_and_add_incomplete force their output to the named group operation.", "quantifier": "every point and every assignment", "why_tests_cant": "Malicious assignments.", "anchors": ["src/gadgets/ecc.rs: witness, conditional_neg, conditional_endo, double, double_and_add_incomplete"]}
{"id": "C41", "title": "In-circuit point addition is sound", "statement": "CurvePoint::add and add_incomplete force their output to be the sum of the two inputs in every satisfying assignment.", "quantifier": "every pair of points, every assignment", "why_tests_cant": "Malicious assignments.", "anchors": ["src/gadgets/ecc.rs: add, add_incomplete, add_conditionally, add_conditionally_incomplete"]}
{"id": "C42", "title": "Commitments are linear and position-aligned", "statement": "commit(a) for coefficient vectors up to the parameter size is additive, scales with field multiplication, and depends only on the coefficient vector and the generators.", "quantifier": "every coefficient vector, every parameter size", "why_tests_cant": "All vectors.", "anchors": ["src/proofs.rs: Params::commit"]}
{"id": "C43", "title": "Honest polynomial openings verify", "statement": "For every batch of openings produced by new_proof on a valid claim, verify_proof accepts and returns leftovers whose check also passes.", "quantifier": "every k, every set of polynomials, points and claimed openings, every transcript state", "why_tests_cant": "Unbounded numbers of rounds and polynomials.", "anchors": ["src/proofs.rs: MultiPolynomialOpening::new_proof, verify_proof"]}
{"id": "C44", "title": "Honest proofs verify", "statement": "Proof::new on a satisfiable circuit produces a proof accepted by Proof::verify for the same circuit and inputs.", "quantifier": "every satisfiable circuit, every witness, every randomness", "why_tests_cant": "All circuits.", "anchors": ["src/proofs.rs: Proof::new, Proof::verify"]}
{"id": "C45", "title": "Leftovers and Deferred checks accept exactly the true relations", "statement": "Deferred::verify accepts exactly when the recorded scalar relation holds, Leftovers::verify accepts exactly when the recorded generator equals the folded generator; the dummy values pass their own checks.", "quantifier": "every record", "why_tests_cant": "All records.", "anchors": ["src/proofs.rs: Leftovers::verify, Deferred::verify, Leftovers::dummy, Deferred::dummy"]}
{"id": "C46", "title": "Leftovers and Deferred encodings have fixed layout and are injective", "statement": "to_bytes produces a byte string whose length depends only on k, and two records with the same bytes are equal.", "quantifier": "every record", "why_tests_cant": "All records.", "anchors": ["src/proofs.rs: Leftovers::to_bytes, Deferred::to_bytes", "src/recursion.rs"]}
{"id": "C47", "title": "The base-case switch in the recursive circuit", "statement": "equal_unless_base_case forces the two bit strings to be equal in every satisfying assignment unless the base-case flag is one.", "quantifier": "every bit string length and assignment", "why_tests_cant": "Malicious assignments and all lengths.", "anchors": ["src/recursion.rs: equal_unless_base_case, num_equal_unless_base_case"]}
{"id": "C48", "title": "The coordinates of an identity point gadget are (0, 0)", "statement": "In every satisfying assignment, a witnessed point whose flag says that it is the identity has coordinates (0, 0), as the documentation of get_xy says.", "quantifier": "every assignment", "why_tests_cant": "Malicious assignments.", "anchors": ["src/gadgets/ecc.rs: witness, get_xy"]}
{"id": "C49", "title": "In-circuit multiplication by a challenge is sound", "statement": "multiply_endo forces its output to be the point times the scalar of the challenge bits, in every satisfying assignment.", "quantifier": "every point, every 128 bits, every assignment", "why_tests_cant": "Malicious assignments.", "anchors": ["src/gadgets/ecc.rs: multiply_endo"]}
{"id": "C50", "title": "In-circuit multiplication by bits computes the product", "statement": "For every point and every list of bits the honest prover's synthesis of multiply succeeds, satisfies the constraints, and yields the point times the number with these bits.", "quantifier": "every point, every number of bits, every bit string", "why_tests_cant": "All lengths and values, with the exceptional cases of the addition law.", "anchors": ["src/gadgets/ecc.rs: multiply"]}
{"id": "C51", "title": "In-circuit division by a challenge or a number", "statement": "multiply_inv_endo and multiply_inv yield a point whose multiple by the challenge scalar (number) is the input, and synthesis never fails for a challenge (for a number that is not zero as a scalar).", "quantifier": "every point, every bit string", "why_tests_cant": "2^128 challenges; exceptional cases of the addition law.", "anchors": ["src/gadgets/ecc.rs: multiply_inv_endo, multiply_inv"]}
{"id": "C52", "title": "The scalar of a challenge is never zero", "statement": "get_challenge_scalar never returns zero, so the inverse that the provers and verifiers unwrap always exists.", "quantifier": "every challenge", "why_tests_cant": "2^128 challenges.", "anchors": ["src/util.rs: get_challenge_scalar", "src/proofs.rs", "src/gadgets/ecc.rs: multiply_inv_endo"]}
{"id": "C53", "title": "Distinct challenges give distinct scalars", "statement": "Two challenges have the same scalar if and only if their lower 128 bits agree apart from the two lowest.", "quantifier": "every pair of challenges", "why_tests_cant": "2^256 pairs.", "anchors": ["src/util.rs: get_challenge_scalar"]}
{"id": "C55", "title": "Fresh parameters are usable commitment keys", "statement": "If Params::new returns, it has k > 3, d = 2^k, n = 2^(k-2) and exactly 2^k generators, every one of them a point of the curve other than the identity, and each generator is the first point in its stream of hash outputs; it returns whenever in every stream a point that is not the identity comes first.", "quantifier": "every k, every hash function", "why_tests_cant": "Depends on every output of the hash function, including attempts that are not encodings or encode the identity.", "anchors": ["src/proofs.rs: Params::new"]}
{"id": "C54", "title": "Whoever can open a commitment knows the polynomial", "statement": "From a prover that is accepted for three different challenges at every round one can compute polynomials with the claimed commitments and the claimed values at the points; in particular a commitment cannot be opened to a value its polynomial does not have.", "quantifier": "every number of rounds, every list of instances, every prover", "why_tests_cant": "It is about every prover, including malicious ones.", "anchors": ["src/proofs.rs: MultiPolynomialOpening::verify_proof, Leftovers::verify"]}
{"id": "C56", "title": "The circuit checks deferred records as the native verifier does", "statement": "In every satisfying assignment of the verification circuit, the old deferred record that is unpacked from the public input bits is one that Deferred::verify accepts; and the circuit can be satisfied for every record that Deferred::verify accepts.", "quantifier": "every k, every bit string, every assignment", "why_tests_cant": "Malicious assignments, all records and all sizes.", "anchors": ["src/recursion.rs: verify_deferred, compute_b, obtain_scalar_from_bits, get_challenge_scalar", "src/proofs.rs: Deferred::verify, Deferred::to_bytes"]}
{"id": "C57", "title": "Prover and verifier run the same verification circuit", "statement": "For fixed parameters and a user circuit whose constraints do not depend on its values, the verification circuit asks for the same gates and constraints in every run: with values by the prover, without values by the verifier, in the base case or with an old proof. Its public inputs are exactly the bits of payload, leftovers and deferred data, in the order the verifier commits to, and it never panics when it is run without values.", "quantifier": "every user circuit, old proof, payload, leftovers and deferred record of the right sizes", "why_tests_cant": "Any branch on a value in any gadget would change the circuit for some values only.", "anchors": ["src/recursion.rs: VerificationCircuit::synthesize, RecursiveProof::create_proof, RecursiveProof::verify_inner"]}
{"id": "C58", "title": "Fast multiplication of a point by bits is multiplication", "statement": "For every point and every nonempty list of bits whose last one is set, multiply_fast gives the honest prover the point times the number with these bits, and multiply_inv_fast a point whose multiple is the given one; no addition on the way is exceptional.", "quantifier": "every point including the identity, every list of bits", "why_tests_cant": "Exceptional additions occur for rare combinations of point and scalar; lengths are unbounded.", "anchors": ["src/gadgets/ecc.rs: CurvePoint::multiply_fast, CurvePoint::multiply_inv_fast, CurvePoint::inv_helper"]}
{"id": "C59", "title": "Circuit and verifier commit to the same public inputs", "statement": "The verifier's commitment to the public inputs of a recursive proof is the sum of the generators for the constant one and the bits that are set, which is the commitment to the polynomial k(Y) of the proof system for these public inputs. Unless one of the incomplete additions is exceptional, the commitment computed in the verification circuit is the same point, for the honest prover and for every satisfying assignment.", "quantifier": "every list of bits, all generators", "why_tests_cant": "The circuit walks over the bits with an addition formula that is wrong for some pairs of points; a difference for one pattern of bits is enough to make proofs unverifiable.", "anchors": ["src/recursion.rs: VerificationCircuit::verify_proof, RecursiveProof::verify_inner"]}
{"id": "C60", "title": "Honest chains of recursive proofs of any length verify", "statement": "If everybody in a chain of recursive proofs calls create_proof with a proof that was made that way before on the other curve, or with none, then every proof that create_proof returns is accepted by verify, for every verifier with the same parameters and user circuit, whatever private data and number of cores it has. The chain may have any length and may fork.", "quantifier": "every history of calls of create_proof, every payload, every user circuit whose constraints do not depend on its values, every verifier", "why_tests_cant": "The state carried along (leftovers, deferred records, challenges cut to 128 bits) differs at each step; a test runs a few steps.", "anchors": ["src/recursion.rs: RecursiveProof::create_proof, RecursiveProof::verify, RecursiveProof::verify_inner", "src/proofs.rs: Proof::new, Proof::verify"]}
{"id": "C61", "title": "Each honest step satisfies the verification circuit", "statement": "At every step of an honest chain, with or without an old proof, the verification circuit that create_proof builds is satisfied by the honest prover's values for exactly the public inputs the verifier will use: the circuit agrees with the native verifier on every challenge, opening, point and deferred value. This needs that the user's circuit accepts the step and that no addition in the commitment to the old public inputs is exceptional.", "quantifier": "every honest history, payload, user circuit and parameter size", "why_tests_cant": "The circuit repeats the verifier with incomplete formulas, truncated values and alternative selections; agreement is needed for all points, challenges and bits.", "anchors": ["src/recursion.rs: VerificationCircuit::synthesize, verify_proof, verify_inner_product, verify_deferred, RecursiveProof::create_proof"]}
{"id": "C62", "title": "Which payloads the example circuits can be verified for", "statement": "The circuit of examples/paper.rs asks for the same constraints whatever values are known, so that provers and verifiers use the same circuit. The circuit of examples/bitcoin.rs does so for every new payload whose header has a nonzero target of at most 256 bits that is a multiple of 256 (nBits with a size from 4 to 32 and a nonzero mantissa); then the guarantees for chains of proofs apply to it. For every other payload of the right length, verify panics, whatever the proof contains: whoever sends a proof can crash the verifier.", "quantifier": "every payload, every proof, all values that the prover's side knows, all parameters", "why_tests_cant": "The examples run the circuit on a few consecutive headers; the values computed while synthesizing decide whether the code panics, and payloads come from whoever sends the proof.", "anchors": ["examples/bitcoin.rs: BitcoinHeaderCircuit::synthesize, CompactBits::from_header, CompactBits::unpack", "examples/paper.rs: MyCircuit", "src/recursion.rs: RecursiveProof::verify"]}
{"id": "C63", "title": "The Bitcoin example only allows steps that extend the chain by one block", "statement": "If the constraints of the circuit of examples/bitcoin.rs can be satisfied with a public new payload and a private old payload, then the new payload extends the old one: its height is one more, its header contains the hash of the old header, its target is not negative, and its cumulative work is the old one plus the work of the block. (Not that the hash is below the target: the code leaves this to do.) Conversely every such step can be satisfied.", "quantifier": "every old payload, every new payload for which the verifier does not panic, every assignment of the circuit's variables, both fields", "why_tests_cant": "A test runs the honest prover; what the circuit excludes is a statement about all assignments that a cheating prover might choose.", "anchors": ["examples/bitcoin.rs: BitcoinHeaderCircuit::synthesize, CompactBits::unpack, enforce_equality"]}
{"id": "C64", "title": "The Bitcoin example's prover can prove every step that extends the chain", "statement": "For every step that extends the chain by one block, where the verifier does not panic and the size of the target is less than 32, the values that the prover's code computes satisfy the constraints of the circuit of examples/bitcoin.rs.", "quantifier": "every old payload, every new payload, both fields", "why_tests_cant": "The example runs on a few headers that all have the same target; whether the computed values fit depends on the bits of the target.", "anchors": ["examples/bitcoin.rs: BitcoinHeaderCircuit::synthesize, CompactBits::unpack"]}
{"id": "C65", "title": "An accepted recursive proof attests to the whole history", "statement": "The verification circuit of a step can only be satisfied if the proof of the previous step is accepted (up to the checks that are deferred to the final verifier). So if RecursiveProof::verify accepts a proof, its payload was reached from the base payload by steps that the user's circuits allow, and nobody can make an accepted proof whose previous payload was never reached.", "quantifier": "every proof, every pair of payloads, every assignment of the circuit's variables, every strategy of a cheating prover", "why_tests_cant": "A test runs honest provers, for which the circuit agrees with the verifier; what a cheating prover can make the circuit accept is a statement about all assignments.", "anchors": ["src/recursion.rs: RecursiveProof::create_proof, RecursiveProof::verify, VerificationCircuit::verify_proof, VerificationCircuit::verify_inner_product", "src/gadgets/ecc.rs: CurvePoint::add, CurvePoint::add_incomplete"]}
{"id": "C66", "title": "Whoever makes accepted proofs knows a satisfying assignment", "statement": "Fix the parameters, a circuit, its public inputs and the old leftovers. Take any program in the role of the prover (Proof::new replaced by anything), whose messages depend only on the challenges before them. If Proof::verify accepts its answers to sufficiently many challenges in each place of the transcript, and so do Deferred::verify and Leftovers::verify for what is left over, then from these answers alone one can compute either an assignment of all variables of the circuit that satisfies it for the given public inputs and that the prover committed to in its first message, or two different vectors of coefficients with the same commitment. In the former case the old leftovers, too, are correct.", "quantifier": "every prover, every circuit of suitable size, every list of public inputs, all old leftovers, all parameters, every choice of challenges by the extractor", "why_tests_cant": "A test can try some cheating provers; that no cheating prover succeeds is a statement about all programs.", "anchors": ["src/proofs.rs: Proof::verify, MultiPolynomialOpening::verify_proof, Deferred::verify, Leftovers::verify"]}
{"id": "C67", "title": "A proof says nothing if the old leftovers come with it", "statement": "Proof::verify does not put the old leftovers into its transcript. So an accepted proof, an accepted deferred record and accepted new leftovers say nothing about the circuit unless the old leftovers were fixed beforehand (as the public inputs of a recursive proof fix them) or are checked as well: for every circuit of suitable size, all public inputs of the right number, and all old leftovers whose challenges have square roots, someone who may replace one point of the old leftovers (g_new) can make a proof that is accepted, whose deferred record is accepted, and whose new leftovers are correct. This holds in particular if no assignment satisfies the circuit.", "quantifier": "every circuit of suitable size, every list of public inputs, all old leftovers, every transcript that yields challenges, all parameters", "why_tests_cant": "The tests only pass leftovers that the honest prover returned; what an attacker can choose is not exercised, and that the attack works for every circuit is a statement about all of them.", "anchors": ["src/proofs.rs: Proof::verify, Leftovers, Leftovers::verify, Deferred::verify"]}
{"id": "C68", "title": "Nobody convinces the verifier of a false statement with more than a negligible probability", "statement": "Fix the parameters, a circuit with Q linear constraints, its public inputs and the old leftovers, and let the challenges be drawn uniformly from finite sets (the code draws y, x and y_new from 2^127 values, z from 2^125, and square roots of such scalars in the rounds). If no assignment satisfies the circuit for the public inputs, or the old leftovers are wrong, then any program in the role of the prover is accepted (Proof::verify and the checks of what is left over) with a probability of at most (2^k + 3Q)/|Y| + 3·2^k/|X| + (2^k + 2Q)/|Y_new| + 12/|Z| + 4k/|U|, unless its answers to a number of challenges polynomial in 2^k and Q yield two different vectors with the same commitment.", "quantifier": "every prover, every circuit of suitable size, every list of public inputs, all old leftovers, all parameters, all finite sets of challenges", "why_tests_cant": "A probability over 2^127 challenges cannot be estimated by tests, and the bound is for all cheating programs.", "anchors": ["src/proofs.rs: Proof::verify, MultiPolynomialOpening::verify_proof", "src/util.rs: get_challenge, get_challenge_scalar"]}
{"id": "C69", "title": "When the verifier returns a verdict", "statement": "For valid parameters, any circuit, even if it is too large for them, and any proof with at least five final scalars, whatever its points and scalars are: Proof::verify returns true or false, and does not panic, exactly if the number of public inputs is right, the old leftovers have at least one challenge and all of them are squares, the proof has k rounds of at least five entries, and for the messages of each round one of the first 256 challenges of the transcript is a square. When it returns then Deferred::verify and Leftovers::verify return for what it leaves over. The transcript of the code always yields the other challenges.", "quantifier": "every proof, every circuit, every list of public inputs, all old leftovers, all parameters, every number of cores, every transcript", "why_tests_cant": "A proof comes from somebody else and may consist of arbitrary points and scalars; tests can feed the verifier a handful of them.", "anchors": ["src/proofs.rs: Proof::verify, MultiPolynomialOpening::verify_proof, Deferred::verify, Leftovers::verify", "src/util.rs: compute_b"]}
{"id": "C70", "title": "The sponge is collision resistant", "statement": "Nobody can find two different histories of absorb and squeeze calls, which differ in more than what C24 describes, after which the sponge gives the same outputs. In particular an absorbed element cannot be chosen such that the sponge reaches the state of another given history.", "quantifier": "all histories of calls, all messages, every position in the last block", "why_tests_cant": "Tests compare a few messages; a collision is a pair out of infinitely many histories.", "anchors": ["src/rescue.rs: Rescue::absorb, Rescue::squeeze, generate_mds_matrix, rescue_f"]}
{"id": "C71", "title": "When the verifier of recursive proofs returns a verdict", "statement": "For a setup as in C60 and any recursive proof with at least five final scalars and an admitted payload, whatever else it holds: RecursiveProof::verify returns true or false, and does not panic, exactly if the four lists of challenges that it carries have 4k elements together, the leftovers for the other curve have k challenges and all of them are squares, the deferred record is well formed (as in C45), the leftovers for its own curve have at least one challenge and all of them are squares, the inner proof has k rounds of at least five entries, and for the messages of each round one of the first 256 challenges of the sponge is a square. Nothing else that the sender of a proof puts into it can make the verifier panic.", "quantifier": "every recursive proof, from whomever it comes, every setup, every user circuit, every number of cores", "why_tests_cant": "The proof comes from somebody else, and its verifier runs the verification circuit, three checks of leftovers and two of deferred records on it; tests can feed it a handful of proofs.", "anchors": ["src/recursion.rs: RecursiveProof::verify, verify_inner", "src/proofs.rs: Leftovers::verify, Deferred::verify, Proof::verify"]}
{"id": "C72", "title": "Constraint counts per namespace", "statement": "constraint_count fails exactly as the circuit does when it is run without values, or when a namespace with a slash in its name is left. Otherwise it reports under the empty path the numbers of allocations, multiplications, gates and linear constraints of the whole circuit, including the constant one, and these are the numbers of gates and constraints of the system that is proved; and under each other path what was asked for between entering and leaving the last namespace with this path, including the namespaces nested in it. Different paths have different keys. In all there is one gate for each multiplication and for each two allocations; for a namespace this holds up to half a gate.", "quantifier": "every circuit, every nesting of namespaces, all names", "why_tests_cant": "The counts are kept on a stack that is saved and merged on every entry and exit, for arbitrarily deep nesting; tests look at a few circuits.", "anchors": ["src/dev.rs: constraint_count, ConstraintCounts, compute_path", "src/circuits.rs: ConstraintSystem::namespace, Namespace"]}
{"id": "C73", "title": "The errors of is_satisfied report the first violated constraint", "statement": "is_satisfied fails exactly as the circuit does when it is run with values, or with a panic if the name of a variable or of a multiplication has a slash. Otherwise it reports the number of public inputs if it is wrong; else the first gate that does not hold, with its three values and the path of the multiplication that asked for it, and never a gate of an allocation; else the first linear constraint that does not hold, with both its sides and its namespace, or panics at the first one that mentions a variable that does not exist; and else it returns true. Names and namespaces have no influence on whether it returns true. The path need not be unique, and linear constraints have no name of their own.", "quantifier": "every circuit, every nesting of namespaces, all names, all witnesses and public inputs", "why_tests_cant": "Which constraint is the first violated one, and what its path is, depends on the whole history of calls of an arbitrary circuit.", "anchors": ["src/dev.rs: is_satisfied, SatisfactionError, compute_path", "src/synthesis.rs: Basic", "src/circuits.rs: ConstraintSystem::namespace"]}
{"id": "C74", "title": "Proofs hide the witness", "statement": "A proof made by Proof::new reveals nothing about the secret values of the circuit beyond the public inputs: for two witnesses of the same circuit with the same public inputs, the proofs cannot be told apart. (False of the code: the prover uses no randomness, and each proof contains an unblinded commitment to the values of all variables, with which a guess of the witness can be tested; for a circuit with one free secret, proofs for different secrets are always different. What is true: a proof depends on nothing else that the prover knows.)", "quantifier": "every circuit, every witness, all transcripts, leftovers and parameters", "why_tests_cant": "It compares what can be learned from proofs of all possible witnesses.", "anchors": ["src/proofs.rs: Proof::new, Params::commit"]}
{"id": "C75", "title": "recursive_is_satisfied and recursive_constraint_count speak about the circuit that create_proof proves", "statement": "recursive_is_satisfied answers Ok(true) exactly if the circuit that create_proof would prove for the same arguments is satisfied by the prover's values for the public inputs that the verifier of the new proof uses; it does so at every honest step. recursive_constraint_count reports the size of this circuit, which does not depend on the data that it is given. If the answer is Ok(true) and the counts are below the sizes of the parameters, then at a step of an honest history create_proof returns a proof, unless a round of its opening argument finds no challenge that is a square, and every verifier accepts this proof.", "quantifier": "every parameters, old proof or none, user circuit, payload; for the prediction every honest history and every verifier", "why_tests_cant": "It relates two functions for all arguments, and all histories of proofs.", "anchors": ["src/dev.rs: recursive_is_satisfied, recursive_constraint_count", "src/recursion.rs: RecursiveProof::create_proof, RecursiveProof::verify"]}
{"id": "C76", "title": "The size of the verification circuit, and the smallest parameters", "statement": "recursive_constraint_count reports exactly these numbers for the whole circuit, for parameters with 2^k generators, a payload of n bits and a user's circuit that asks for a allocations, m multiplications and l linear constraints: 53354 + 3n + 4248k + a allocations, 201630 + 9n + 16992k + ceil(128k/250) + m multiplications, and 468155 + 23n + 38696k + 3 ceil(128k/250) + l linear constraints; the gates are the multiplications and half of the allocations. So parameters with k >= 22 are large enough, unless the payload or the user's circuit are very large, and then an honest create_proof returns a proof, unless a round of its opening argument finds no challenge that is a square. With k <= 21 create_proof does not return a proof, whatever the user's circuit is.", "quantifier": "every k >= 2, payload size and user's circuit; for create_proof every honest history", "why_tests_cant": "The formula is about all sizes; a test measures one, and running create_proof at one size takes minutes.", "anchors": ["src/dev.rs: recursive_constraint_count", "src/recursion.rs: VerificationCircuit::synthesize, RecursiveProof::create_proof", "src/proofs.rs: Proof::new, Params::new", "examples/paper.rs, examples/bitcoin.rs: Params::new(22)"]}
{"id": "C77", "title": "The programs of the examples succeed", "statement": "The example programs make parameters for both curves with k = 22, and then a chain of proofs that alternates between the curves, checking each proof. If a point that is not the identity is drawn for every generator, and the points of generators 1 and 2 are not opposite, then the program of paper.rs makes its five proofs, the program of bitcoin.rs its ten, and no assertion fails, unless one of two things happens at a step: an addition in the commitment to the old public inputs is exceptional, or a round of the opening argument finds no challenge that is a square. The same holds for any circuits that fit and any number of payloads that they allow. The circuits of the examples fit: that of bitcoin.rs asks for at most 110605 allocations, 165473 multiplications and 442686 linear constraints. The ten blocks written down in bitcoin.rs extend each other, with the work written down, starting at the genesis block.", "quantifier": "every randomness read from the operating system, number of cores, step of the loop; for the loop, every pair of circuits and every list of payloads", "why_tests_cant": "A run of the example is one choice of the generators.", "anchors": ["examples/paper.rs: main", "examples/bitcoin.rs: main, CycleStep", "src/proofs.rs: Params::new", "src/recursion.rs: RecursiveProof::create_proof, RecursiveProof::verify"]}
{"id": "C78", "title": "Exactly which proofs the verifiers accept", "statement": "Proof::verify, for any transcript, parameters, circuit, public inputs and any proof with points on the curve, returns true exactly if there is a public input for each one that the circuit exposes, the challenges of the old leftovers are squares, the proof has k rounds, the transcript, fed with the messages of the proof in order, yields challenges, and each of five claims is opened: that the sum z^6 R + z^5 S_old + z^4 S_cur + z^3 T+ + z^2 T- + z S_new + G_old opens at x to the same sum of the openings, R at xy to r(x,y), C at the old y to s_old, C + z K at y to s_cur + z k(y), and C at the new y to s_new. A claim is opened by the last message if, after adding u^2 L + u^-2 R of every round to the commitment and u^2 l + u^-2 r to the value, the value is a times the folding vector at the point, and the commitment is a times the last generator, or is the identity (see C17). What is returned next to it is determined: the new leftovers, the deferred record and the forks. RecursiveProof::verify returns true exactly if, for the bits of everything that the proof carries as public inputs, the inner proof is accepted in this sense, the deferred relation holds between its openings, its new leftovers pass, the deferred record that it carries is well formed and true, the leftovers for the other curve pass, and the four lists of challenges have 4k elements. Leftovers pass exactly if there are k challenges, all squares, and both points are the ones that are recomputed, or these are the identity.", "quantifier": "every proof with points on the curve, from whomever it comes, every transcript, statement, setup of C60", "why_tests_cant": "Tests check that honest proofs are accepted and that some wrong ones are not.", "anchors": ["src/proofs.rs: Proof::verify, MultiPolynomialOpening::verify_proof, Leftovers::verify, Deferred::verify", "src/recursion.rs: RecursiveProof::verify, RecursiveProof::verify_inner"]}
{"id": "C79", "title": "What the verifiers do not look at: proofs are malleable", "statement": "Proof::verify looks only at the first five entries of each of the lists L, R, l, r of a round and of the list of last scalars, at the lower 128 bits of the packed challenges of the old leftovers, and at the points, not at how they are encoded: two proofs, with old leftovers, that differ only in the rest are both accepted or both not, and what is left over differs only in the same way. The same is true of RecursiveProof::verify, which looks only at the lower 128 bits of the packed challenges in the leftovers and in the deferred record that it carries. So recursive proofs are malleable: from every one that is accepted anybody can make others, with different contents, that are accepted for the same payload. A proof must not be identified by its contents.", "quantifier": "every pair of proofs that differ in this way, every transcript, statement, setup of C60, every accepted recursive proof", "why_tests_cant": "It is a statement about pairs of proofs that agree in some parts and are arbitrary otherwise.", "anchors": ["src/proofs.rs: MultiPolynomialOpening::verify_proof (TODO: verify lengths), Proof::verify, Leftovers::to_bytes, Deferred::to_bytes", "src/util.rs: get_challenge_scalar", "src/recursion.rs: RecursiveProof::verify"]}
{"id": "C80", "title": "What of its messages the challenges of a proof depend on", "statement": "The challenges that Proof::verify draws are computed from the messages of the proof by the Rescue sponge, which ignores the first of every twelve elements that are absorbed after a challenge (C24). So the challenges are the same for two proofs whose messages, as lists of coordinates, agree at every position that is not a multiple of twelve. This leaves out the x coordinates of the commitments to s(X, y), s(x, Y) and s(X, y_new), of the commitment to the public inputs, of the multiple of the generator that stands for the opening of the positive part of t, and four coordinates of every round. As the endomorphism of the curve changes nothing but the x coordinate, these points can be replaced by their images, and these scalars by their multiples by a cube root of unity, and the verifier returns the same challenges and forks. So the challenges do not bind the prover: for every proof whose commitment to s(X, y) is not the identity there is another point that can stand in its place with the same challenges.", "quantifier": "every pair of proofs that agree at these positions, all public inputs and commitments to them; every proof with at least five last scalars, all parameters and circuits", "why_tests_cant": "Tests with honest proofs never compare the challenges of two proofs that differ in chosen coordinates.", "anchors": ["src/proofs.rs: Proof::verify, MultiPolynomialOpening::verify_proof, append_point, append_scalar, get_challenge", "src/rescue.rs: Rescue::absorb, Rescue::squeeze"]}
{"id": "C81", "title": "Packed equalities imply each equality", "statement": "MultiEq collects equalities of linear combinations, each with a number of bits, scales them by powers of two and enforces them together. If the values of both sides of each equality are integers of the stated number of bits, the constraints imply all of the equalities, however many are collected. If all equalities hold and each has fewer than 254 bits, it does not panic and the constraints are satisfied, whether or not the values are in range; an equality of 254 bits or more makes it panic. Equalities with fewer than 254 bits in total cost a single constraint. The ranges are needed and not enforced: 2 = 0 and 0 = 1, collected as equalities of one bit, are accepted.", "quantifier": "every sequence of calls of enforce_equal with linear combinations and sizes, every assignment to the variables, both fields", "why_tests_cant": "That there is no wraparound in the field at the boundary between two packed constraints depends on all values and on all ways to fill the capacity.", "anchors": ["src/gadgets/multieq.rs: MultiEq::new, MultiEq::enforce_equal, MultiEq::accumulate, Drop for MultiEq"]}
{"id": "C82", "title": "Proofs and verdicts do not depend on the machine", "statement": "The number of cores and the floating-point logarithm, by which multiexponentiations and products of polynomials are split, have no influence on results. For the same parameters, circuit, inputs, transcript and old leftovers or old proof, Proof::new and RecursiveProof::create_proof on two machines fail in the same way, or make proofs with the same points and the same scalars. Proof::verify, Leftovers::verify and RecursiveProof::verify give the same verdict, the same new leftovers, deferred record and forks, or fail in the same way, on proofs with the same points and scalars. Only the projective encodings of points may differ, and nothing that is hashed, witnessed or compared depends on them. The programs of the examples end in the same way on both.", "quantifier": "every pair of machines with at least one core each, all parameters, circuits, public inputs, transcripts, old leftovers and proofs, valid or not, whose points are on the curve", "why_tests_cant": "Tests run on one machine, and a difference would show only for sizes at which the chunks differ.", "anchors": ["src/util.rs: multiexp, multiply_polynomials, parallel_fft, parallel_generator_collapse", "src/proofs.rs: Proof::new, Proof::verify, Leftovers::verify, Leftovers::dummy", "src/recursion.rs: RecursiveProof::create_proof, RecursiveProof::verify"]}
{"id": "C83", "title": "The prover does not return proofs for values that violate the circuit, except with bad luck", "statement": "Proof::new checks its own values: at the first challenge y that it draws, it computes one number from everything that the values violate, and panics if that is not zero. If the values satisfy the circuit the number is zero for every y. If they do not, there are at most 2n + Q values of y for which it is zero, which depend on the circuit and the values only, where n is the number of gates that the parameters have room for, and Q the number of linear constraints; for every other challenge the prover panics. Whatever the prover returns is accepted by the verifier, for the public inputs of the values, satisfied or not, with correct new leftovers and a correct deferred record. If the challenge is one of these bad ones, the prover returns and the verifier accepts, even for a circuit that nothing satisfies.", "quantifier": "every circuit that is small enough, satisfiable or not, all values, correct old leftovers, parameters, transcripts and machines", "why_tests_cant": "Tests prove satisfied circuits; that every violation is caught, but for a bounded number of challenges, ranges over all values and challenges.", "anchors": ["src/proofs.rs: Proof::new, Proof::verify"]}
{"id": "C84", "title": "A circuit may go on after a failed call", "statement": "A circuit may ignore an error from alloc, alloc_input or multiply and go on. Then, on the prover and on is_satisfied: a call fails exactly if its closure fails, with the same error; all variables that have been returned are distinct and keep the values that were supplied for them, whatever calls fail before or after; gates multiply if the supplied triples do; and the circuit ends as it would with zeros in place of the missing values. is_satisfied returns Ok(true) exactly if the constraints asked for hold for these values. On the verifier's side no call fails. Prover and verifier see the same circuit if it makes the same calls, and determinism_check notices if they do not.", "quantifier": "all circuits, all histories of successful and failed calls, all values and public inputs", "why_tests_cant": "Every circuit in the repository passes errors on, and histories with failed calls are unbounded.", "anchors": ["src/synthesis.rs: Basic::synthesize, alloc, alloc_input, multiply", "src/circuits.rs: ConstraintSystem", "src/dev.rs: is_satisfied, determinism_check", "src/proofs.rs: Proof::new"]}
{"id": "C85", "title": "Printed values", "statement": "Printing a field element with {:?} gives 0x followed by 64 lower-case hexadecimal digits, which denote the integer below the modulus that the element stands for. Two field elements print alike exactly if they are equal, so do two points of a curve with {:?}, and so do two ConstraintCounts with {}.", "quantifier": "all elements of both fields, all points, all counts", "why_tests_cant": "There are about 2^254 elements, and many coordinates for each point.", "anchors": ["src/fields/fp.rs: Debug for Fp", "src/fields/fq.rs: Debug for Fq", "src/curves/ec0.rs: derive(Debug) for Ec0", "src/curves/ec1.rs: derive(Debug) for Ec1", "src/dev.rs: Display for ConstraintCounts"]}
{"id": "C86", "title": "The code only extends right proofs", "statement": "recursive_is_satisfied may be given any old proof of the right shape. If it answers Ok(true), then the deferred record of the old proof is true, the user's circuit allows the step from its payload to the new one, and the verifier accepts the old proof if and only if the new deferred record, the new leftovers and the other leftovers of the old proof are right. So if the proof that create_proof then returns is accepted, and those leftovers are right, the old proof is accepted. If create_proof returns a proof without that check, the same holds unless the first challenge is one of a few numbers, although create_proof does not look at the verdict on the old proof.", "quantifier": "all old proofs of the right shape, honest or not, all user circuits, payloads and machines", "why_tests_cant": "The old proof is arbitrary data, and the claim is about all wrong ones.", "anchors": ["src/recursion.rs: RecursiveProof::create_proof, verify_inner, VerificationCircuit::synthesize", "src/dev.rs: recursive_is_satisfied"]}
{"id": "C87", "title": "Which circuit a proof is for", "statement": "Proof::verify looks at the circuit only to find where it exposes its public inputs: for two circuits that expose theirs by the constraints with the same numbers it returns the same result (verdict, new leftovers, deferred record) for every proof. What tells them apart is the check of the new leftovers. If some linear constraint of the two circuits differs, then, except for a number of challenges y that is at most about twice the number of their constraints, and that are fixed by the two circuits, leftovers that Leftovers::verify accepts for both exhibit two vectors, which anybody can compute from the circuits, whose commitments collide. If no linear constraint differs, Leftovers::verify does not tell them apart at all, even if they have different numbers of gates. The same holds for RecursiveProof::verify: a recursive proof that is accepted for two different pairs of user circuits, apart from such few challenges, exhibits such a collision on the curve where the circuits differ.", "quantifier": "all pairs of circuits, proofs, leftovers, parameters, public inputs, transcripts and machines", "why_tests_cant": "It is about all circuits that another proof could be mistaken for; a test tries one.", "anchors": ["src/proofs.rs: Proof::verify, Leftovers::verify", "src/recursion.rs: RecursiveProof::verify", "src/circuits.rs: Circuit::synthesize", "src/synthesis.rs: Basic::synthesize"]}
{"id": "C88", "title": "Proofs do not grow", "statement": "The size of a proof does not depend on what is proved. For params with 2^k generators Proof::new returns, for every circuit, every number of public inputs and every old leftovers, a proof of 10k+7 points and 10k+12 scalars, and new leftovers of 2 points and k+1 scalars. A recursive proof, after any number of create_proof steps and for any user circuits, has 10k+9 points and 11k+13 scalars of its own curve, 2 points and 3k'+17 scalars of the other curve (k' the rounds there), and the bytes of its payload; it carries nothing else of its history. Nobody can make proofs grow: a step from an old proof of unknown origin, accepted or not, gives a proof with at most 2k scalars too many, and the step after it gives one of exactly the right size. Nor can a smaller proof be accepted: every proof that the verifiers accept has at least as many points and, counting both curves together, at least as many scalars.", "quantifier": "all circuits, parameters, old leftovers, transcripts and machines; all histories of create_proof, of any length; all old proofs, whoever made them", "why_tests_cant": "It is about histories of every length and all circuits; a test makes a few steps with one circuit.", "anchors": ["src/proofs.rs: Proof::new, MultiPolynomialOpening::new_proof, Proof::verify, Leftovers::dummy, Deferred::dummy", "src/recursion.rs: RecursiveProof::create_proof, RecursiveProof::verify_inner"]}
