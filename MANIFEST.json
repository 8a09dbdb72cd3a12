{
 "claims": [
  {
   "property": "C01",
   "status": "proved",
   "theorems": [
    "Halo.C01_linear_ops",
    "Halo.C01_no_overflow",
    "Halo.representation_bijective"
   ],
   "note": ""
  },
  {
   "property": "C02",
   "status": "proved",
   "theorems": [
    "Halo.C02_mul_square"
   ],
   "note": ""
  },
  {
   "property": "C03",
   "status": "proved",
   "theorems": [
    "Halo.C03_integer_conversions"
   ],
   "note": ""
  },
  {
   "property": "C04",
   "status": "proved",
   "theorems": [
    "Halo.C04_encoding"
   ],
   "note": ""
  },
  {
   "property": "C05",
   "status": "proved",
   "theorems": [
    "Halo.C05_lower_128"
   ],
   "note": ""
  },
  {
   "property": "C06",
   "status": "proved",
   "theorems": [
    "Halo.C06_pow"
   ],
   "note": ""
  },
  {
   "property": "C07",
   "status": "proved",
   "theorems": [
    "Halo.C07_invert"
   ],
   "note": ""
  },
  {
   "property": "C08",
   "status": "proved",
   "theorems": [
    "Halo.C08_sqrt"
   ],
   "note": ""
  },
  {
   "property": "C09",
   "status": "proved",
   "theorems": [
    "Halo.C09_batch_invert",
    "Halo.C09_elements"
   ],
   "note": ""
  },
  {
   "property": "C10",
   "status": "proved",
   "theorems": [
    "Halo.C10_constants"
   ],
   "note": ""
  },
  {
   "property": "C11",
   "status": "proved",
   "theorems": [
    "Halo.C11_group_law",
    "Halo.one_denotes",
    "Halo.denotes_functional_surjective"
   ],
   "note": ""
  },
  {
   "property": "C12",
   "status": "proved",
   "theorems": [
    "Halo.C12_scalar_mul"
   ],
   "note": ""
  },
  {
   "property": "C13",
   "status": "proved",
   "theorems": [
    "Halo.C13_prime_order",
    "Halo.C13_cycle"
   ],
   "note": ""
  },
  {
   "property": "C14",
   "status": "proved",
   "theorems": [
    "Halo.C14_endomorphism"
   ],
   "note": ""
  },
  {
   "property": "C15",
   "status": "proved",
   "theorems": [
    "Halo.C15_point_encoding",
    "Halo.C15_decoding_injective"
   ],
   "note": ""
  },
  {
   "property": "C16",
   "status": "proved",
   "theorems": [
    "Halo.C16_affine"
   ],
   "note": ""
  },
  {
   "property": "C17",
   "status": "partial",
   "theorems": [
    "Halo.C17_equality_is_wrong",
    "Halo.C17_equality_partial"
   ],
   "note": "The property is false of the code: ct_eq tests self.is_zero() twice, so the identity on the left equals every point. The negation is proved with that witness, and the property is proved whenever the left operand is not the identity."
  },
  {
   "property": "C18",
   "status": "proved",
   "theorems": [
    "Halo.C18_multiexp",
    "Halo.ceil_log_ok"
   ],
   "note": "The f64 logarithm that picks the window size is a parameter; the theorem holds for every value between 1 and 57, and ceil_log_ok shows the exact logarithm is in that range for lengths below 2^32."
  },
  {
   "property": "C19",
   "status": "proved",
   "theorems": [
    "Halo.C19_fft",
    "Halo.threads_deterministic"
   ],
   "note": ""
  },
  {
   "property": "C20",
   "status": "proved",
   "theorems": [
    "Halo.C20_multiply_polynomials"
   ],
   "note": ""
  },
  {
   "property": "C21",
   "status": "proved",
   "theorems": [
    "Halo.C21_generator_collapse",
    "Halo.threads_deterministic"
   ],
   "note": ""
  },
  {
   "property": "C22",
   "status": "proved",
   "theorems": [
    "Halo.C22_folding_shortcuts",
    "Halo.C22_folded_generator"
   ],
   "note": ""
  },
  {
   "property": "C24",
   "status": "partial",
   "theorems": [
    "Halo.C24_is_wrong",
    "Halo.C24_first_element_ignored",
    "Halo.C24_one_is_padding",
    "Halo.C24_outputs_predictable",
    "Halo.C24_partial"
   ],
   "note": "The property is false of the code (the MDS matrix has rank one and a zero column). The negation is proved, with the exact consequences; C24_partial proves that elements other than the first of a block survive the first half round."
  },
  {
   "property": "C25",
   "status": "partial",
   "theorems": [
    "Halo.C25_not_bijective",
    "Halo.C25_image_is_a_line",
    "Halo.C25_keys",
    "Halo.C25_partial"
   ],
   "note": "The property is false of the code: the image of the permutation is a line. C25_partial proves that all layers but the matrix are bijections."
  },
  {
   "property": "C26",
   "status": "proved",
   "theorems": [
    "Halo.C26_duplex"
   ],
   "note": ""
  },
  {
   "property": "C27",
   "status": "proved",
   "theorems": [
    "Halo.C27_linear_combinations"
   ],
   "note": "Expressions are LinExpr (Spec/LinExpr)."
  },
  {
   "property": "C28",
   "status": "proved",
   "theorems": [
    "Halo.C28_prover_wires",
    "Halo.C28_checker_wires"
   ],
   "note": "For the two backends that store assignments: the prover's and is_satisfied's."
  },
  {
   "property": "C29",
   "status": "proved",
   "theorems": [
    "Halo.C29_is_satisfied"
   ],
   "note": "Synthesis here includes that linear constraints mention only existing variables; otherwise is_satisfied panics."
  },
  {
   "property": "C30",
   "status": "proved",
   "theorems": [
    "Halo.C30_evaluators_agree",
    "Halo.C30_evaluators_complete"
   ],
   "note": ""
  },
  {
   "property": "C31",
   "status": "proved",
   "theorems": [
    "Halo.C31_constraint_polynomial"
   ],
   "note": "The coefficient is compared with y^n k(y); it agrees for all y if satisfied, and for at most 2n+Q values if not."
  },
  {
   "property": "C32",
   "status": "partial",
   "theorems": [
    "Halo.C32_missing_constraint_accepted",
    "Halo.C32_determinism_check_partial"
   ],
   "note": "The property is false of the code: a second run that stops early is accepted. The partial theorem characterizes what the check accepts."
  },
  {
   "property": "C33",
   "status": "proved",
   "theorems": [
    "Halo.C33_soundness_of_circuits",
    "Halo.C33_completeness_of_circuits",
    "Halo.C33_bits_sound",
    "Halo.C33_bits_complete",
    "Halo.C33_booleans_sound",
    "Halo.C33_booleans_complete"
   ],
   "note": "Sound/Complete are per gadget; the first two theorems lift them to whole constraint systems."
  },
  {
   "property": "C34",
   "status": "proved",
   "theorems": [
    "Halo.C34_numbers_sound",
    "Halo.C34_numbers_complete",
    "Halo.C34_invalpha_is_fifth_root",
    "Halo.C34_combination_arithmetic",
    "Halo.C34_combination_values",
    "Halo.C34_combinations_sound",
    "Halo.C34_combinations_complete",
    "Halo.C34_combinations_wf"
   ],
   "note": ""
  },
  {
   "property": "C35",
   "status": "partial",
   "theorems": [
    "Halo.C35_unpack_not_canonical",
    "Halo.C35_unpack_zero_forged",
    "Halo.C35_unpack_partial"
   ],
   "note": "The property is false of the code: 256 bits are allocated for a field of 255 bits, so x and x + m are both accepted. C35_unpack_partial proves that the bits represent the element modulo m."
  },
  {
   "property": "C36",
   "status": "proved",
   "theorems": [
    "Halo.C36_words_sound",
    "Halo.C36_words_complete",
    "Halo.C36_words_bits"
   ],
   "note": ""
  },
  {
   "property": "C37",
   "status": "proved",
   "theorems": [
    "Halo.C37_mul_acc2_sound",
    "Halo.C37_mul_acc2_complete"
   ],
   "note": ""
  },
  {
   "property": "C38",
   "status": "proved",
   "theorems": [
    "Halo.C38_sha256_sound",
    "Halo.C38_sha256_complete"
   ],
   "note": "Against a separate transcription of FIPS 180-4 (Spec/Sha256), checked on the published digests of the empty message and abc."
  },
  {
   "property": "C39",
   "status": "proved",
   "theorems": [
    "Halo.C39_rescue_sound",
    "Halo.C39_rescue_complete"
   ],
   "note": ""
  },
  {
   "property": "C23",
   "status": "proved",
   "theorems": [
    "Halo.C23_challenge_scalar",
    "Halo.C23_challenge_scalar_circuit"
   ],
   "note": "Honest synthesis; soundness is C49."
  },
  {
   "property": "C40",
   "status": "partial",
   "theorems": [
    "Halo.C40_witness",
    "Halo.C40_negation_endomorphism",
    "Halo.C40_double",
    "Halo.C40_double_and_add_partial",
    "Halo.C40_double_and_add_forged",
    "Halo.C40_double_and_add_not_enforced"
   ],
   "note": "Proved for witness, conditional_neg, conditional_endo and double; double_and_add_incomplete for different points other than the identity. For equal points it is false: the constraints leave the slope free, and the negation is proved for every point."
  },
  {
   "property": "C41",
   "status": "partial",
   "theorems": [
    "Halo.C41_add_forged",
    "Halo.C41_add_incomplete_forged",
    "Halo.C41_add_not_enforced",
    "Halo.C41_addition_partial",
    "Halo.C41_addition_complete"
   ],
   "note": "The property is false of the code: the outputs of add and add_incomplete are unconstrained; the negation is proved for all points other than the identity, with the cases that are sound, and completeness."
  },
  {
   "property": "C48",
   "status": "partial",
   "theorems": [
    "Halo.C48_identity_coordinates_forged",
    "Halo.C48_identity_coordinates_not_enforced",
    "Halo.C48_identity_coordinates_partial"
   ],
   "note": "The property is false of the code: the curve equation is only enforced, and nothing else, when the flag is zero."
  },
  {
   "property": "C49",
   "status": "partial",
   "theorems": [
    "Halo.C49_multiply_endo_false",
    "Halo.C49_not_enforced",
    "Halo.C49_multiply_endo_partial",
    "Halo.C49_multiply_endo_eq"
   ],
   "note": "The property is false of the code: all but at most 190 points of the curve are accepted as the product, for every point but the identity and every challenge. The ladder is sound given the right [3]P, but [3]P comes from add_incomplete, which is not sound (C41)."
  },
  {
   "property": "C50",
   "status": "proved",
   "theorems": [
    "Halo.C50_multiply_complete"
   ],
   "note": ""
  },
  {
   "property": "C51",
   "status": "proved",
   "theorems": [
    "Halo.C51_multiply_inverse_complete"
   ],
   "note": ""
  },
  {
   "property": "C52",
   "status": "proved",
   "theorems": [
    "Halo.C52_challenge_scalar_ne_zero"
   ],
   "note": ""
  },
  {
   "property": "C53",
   "status": "proved",
   "theorems": [
    "Halo.C53_challenge_scalar_injective"
   ],
   "note": ""
  },
  {
   "property": "C42",
   "status": "proved",
   "theorems": [
    "Halo.Proofs.C42_commit",
    "Halo.Proofs.C42_linear",
    "Halo.Proofs.C42_alignment"
   ],
   "note": ""
  },
  {
   "property": "C43",
   "status": "proved",
   "theorems": [
    "Halo.Proofs.C43_opening",
    "Halo.Proofs.C43_prover"
   ],
   "note": "For openings at true claims; the prover returns exactly if no round of the argument gets stuck without a square challenge."
  },
  {
   "property": "C45",
   "status": "partial",
   "theorems": [
    "Halo.Proofs.C45_deferred",
    "Halo.Proofs.C45_deferred_dummy",
    "Halo.Proofs.C45_leftovers_accepts",
    "Halo.Proofs.C45_leftovers_partial",
    "Halo.Proofs.C45_leftovers_false",
    "Halo.Proofs.C45_leftovers_dummy"
   ],
   "note": "Exact for deferred records. For leftovers the property is false of the code: == of curve points accepts the identity on the left, so for y = 0 every commitment is accepted. C45_leftovers_accepts is the exact set that is accepted."
  },
  {
   "property": "C46",
   "status": "partial",
   "theorems": [
    "Halo.Proofs.C46_lengths",
    "Halo.Proofs.C46_leftovers_iff",
    "Halo.Proofs.C46_deferred_iff",
    "Halo.Proofs.C46_leftovers_partial",
    "Halo.Proofs.C46_deferred_partial",
    "Halo.Proofs.C46_leftovers_false",
    "Halo.Proofs.C46_deferred_false"
   ],
   "note": "The property is false of the code for values of 128 bits or more, of which only 16 bytes are written; the iff theorems say exactly what the bytes determine."
  },
  {
   "property": "C44",
   "status": "proved",
   "theorems": [
    "Halo.Proofs.C44_honest_proof_verifies",
    "Halo.Proofs.C44_prover",
    "Halo.Proofs.C44_prover_returns"
   ],
   "note": "For every transcript, circuit accepted by is_satisfied, correct old leftovers: the returned proof verifies (any core counts, given or recomputed input commitment), the deferred record and new leftovers verify; the prover returns exactly if no round of its opening argument gets stuck without a square challenge."
  },
  {
   "property": "C55",
   "status": "proved",
   "theorems": [
    "Halo.Proofs.C55_params"
   ],
   "note": "The stream of hash outputs is a parameter; the draws are those of the code (an attempt that encodes the identity stops the search with a panic)."
  },
  {
   "property": "C54",
   "status": "partial",
   "theorems": [
    "Halo.Proofs.C54_extract_partial",
    "Halo.Proofs.C54_identity_opens_to_anything"
   ],
   "note": "Special soundness, with an explicit extractor, for branches on which the folded commitment is not the identity. On the others the property is false of the code: the identity can be opened to any value at any point, because == accepts the identity on the left."
  },
  {
   "property": "C47",
   "status": "proved",
   "theorems": [
    "Halo.C47_equal_unless_base_case_sound",
    "Halo.C47_equal_unless_base_case_complete"
   ],
   "note": "For strings of every length (chunks of 250 bits are compared as field elements), and for num_equal_unless_base_case."
  },
  {
   "property": "C56",
   "status": "partial",
   "theorems": [
    "Halo.C56_encoding",
    "Halo.C56_deferred_partial",
    "Halo.C56_deferred_complete",
    "Halo.C56_deferred_exact",
    "Halo.C56_deferred_false"
   ],
   "note": "The circuit accepts a record exactly if it is true up to the sign of gx and a common sign of the b's, because the square-root gadget allows both roots; so it accepts records that Deferred::verify rejects (C56_deferred_false)."
  },
  {
   "property": "C57",
   "status": "proved",
   "theorems": [
    "Halo.Recursion.C57_same_circuit",
    "Halo.Recursion.C57_public_inputs"
   ],
   "note": "By a relation between programs that make the same calls whatever values they know, for all gadgets of the circuit. Assumes the generators are affine points of the curve and the first two added are not opposite (else the code panics)."
  },
  {
   "property": "C58",
   "status": "partial",
   "theorems": [
    "Halo.Circuit.CurvePoint.C58_multiply_fast_partial",
    "Halo.Circuit.CurvePoint.C58_multiply_fast_iff",
    "Halo.Circuit.CurvePoint.C58_divide_fast_iff",
    "Halo.Circuit.CurvePoint.C58_regular",
    "Halo.Circuit.CurvePoint.C58_minus_one_false",
    "Halo.Circuit.CurvePoint.C58_multiply_fast_false"
   ],
   "note": "The property is false of the code for a single bit, where it returns three times the point, and for the scalar -1 (255 bits), for which an addition is exceptional and the prover fails with a division by zero. For two and more bits it is characterized exactly when the prover succeeds; it always does for up to 254 bits, and for 255 bits unless the number is the order of the curve or one less."
  },
  {
   "property": "C59",
   "status": "proved",
   "theorems": [
    "Halo.Recursion.C59_native_commitment",
    "Halo.Recursion.C59_commitment_complete",
    "Halo.Recursion.C59_commitment_sound"
   ],
   "note": "For as many bits as there are generators; with more bits the circuit drops the rest while the verifier panics. The condition that no addition is exceptional is explicit (Apart)."
  },
  {
   "property": "C60",
   "status": "proved",
   "theorems": [
    "Halo.Recursion.C60_honest_history_verifies"
   ],
   "note": "Histories are the inductive predicate Made. That create_proof returns is a hypothesis of each step: it depends on the transcript finding challenges. The setup needs generators that are affine points, the first two used for public inputs not opposite, and room for all public inputs."
  },
  {
   "property": "C61",
   "status": "proved",
   "theorems": [
    "Halo.Recursion.C61_honest_step_satisfied",
    "Halo.Recursion.C61_honest_step_satisfied_second"
   ],
   "note": "Under the conditions named in the statement (Accepts, Apart). An instance is given for the first step on the curves of the code with 2^14 generators."
  },
  {
   "property": "C62",
   "status": "proved",
   "theorems": [
    "Halo.Example.C62_paper_uniform",
    "Halo.Example.C62_bitcoin_uniform",
    "Halo.Example.C62_bitcoin_verifier_panics"
   ],
   "note": "setup_bitcoin gives setups that C60 and C61 apply to. The panic is a defect of the example: it is proved for every proof, every k and all parameters of the other curve."
  },
  {
   "property": "C63",
   "status": "partial",
   "theorems": [
    "Halo.Example.C63_allowed_steps_partial",
    "Halo.Example.C63_any_work",
    "Halo.Example.C63_wrong_hash",
    "Halo.Example.C63_extends_false"
   ],
   "note": "False as stated: the circuit leaves the first power of 256 free, so that with 0 every cumulative work is accepted (C63_any_work), and it compares hashes of 256 bits as elements of a field of 255 bits (C63_wrong_hash). What is enforced is characterized exactly."
  },
  {
   "property": "C64",
   "status": "partial",
   "theorems": [
    "Halo.Example.C64_provable_steps_partial",
    "Halo.Example.C64_accepts_partial",
    "Halo.Example.C64_not_provable",
    "Halo.Example.C64_extends_not_provable"
   ],
   "note": "False as stated: the code that computes the target's value for the product gate reads the bits of each byte in the wrong order, so that the prover only succeeds if each byte of the mantissa is a palindrome, which Bitcoin's is up to height 32255. Exact characterization proved."
  },
  {
   "property": "C65",
   "status": "partial",
   "theorems": [
    "Halo.Recursion.C65_any_old_proof",
    "Halo.Recursion.C65_rejected_old_proof",
    "Halo.Recursion.C65_forged_proof_accepted",
    "Halo.Recursion.C65_forger_satisfies",
    "Halo.Recursion.C65_last_step_partial",
    "Halo.Recursion.C65_bitcoin_demands"
   ],
   "note": "False as stated. The attack (Spec/Forgery) makes up an old proof for any payload and claims false sums in the last round of the inner product argument; what it returns is accepted by every verifier (C65_forged_proof_accepted), and its circuit is satisfied (C65_forger_satisfies). That the attack returns is a hypothesis: as for C60, it depends on the transcript finding challenges. C65_last_step_partial is what holds: every satisfying assignment has an old payload that the user's circuit relates to the new one, a deferred record that is true up to signs, and challenges that belong to the transcript of some messages; C65_bitcoin_demands instantiates the relation."
  },
  {
   "property": "C66",
   "status": "proved",
   "theorems": [
    "Halo.Proofs.C66_knowledge_soundness"
   ],
   "note": "Special soundness: the extractor gets the answers of the prover to enough challenges in each place. That a transcript made by a hash function gives a cheating prover no better chance than random challenges (Fiat-Shamir, forking lemma) is outside the model. The extractor finds an assignment, or two vectors with the same commitment."
  },
  {
   "property": "C67",
   "status": "proved",
   "theorems": [
    "Halo.Proofs.C67_exchanged_leftovers",
    "Halo.Proofs.C67_false_statement"
   ],
   "note": "The attack for every circuit and all inputs, and an instance with a circuit that cannot be satisfied. C66 is the positive counterpart for old leftovers that are fixed beforehand."
  },
  {
   "property": "C68",
   "status": "proved",
   "theorems": [
    "Halo.Proofs.C68_soundness_error",
    "Halo.Proofs.C68_false_statement",
    "Halo.Proofs.C68_challenges",
    "Halo.Proofs.C68_spaces",
    "Halo.Proofs.C68_error",
    "Halo.Proofs.C68_transcript"
   ],
   "note": "The probability is the fraction of the challenge outcomes that are accepted. C68_transcript connects this with the verifier that uses a transcript: its accepted runs are outcomes. That a transcript made with a hash function behaves like random challenges (Fiat-Shamir) is outside the model, and the number of scalars that have a square root is a parameter of the bound."
  },
  {
   "property": "C69",
   "status": "proved",
   "theorems": [
    "Halo.Proofs.C69_verdict",
    "Halo.Proofs.C69_leftovers",
    "Halo.Proofs.C69_rescue"
   ],
   "note": ""
  },
  {
   "property": "C70",
   "status": "partial",
   "theorems": [
    "Halo.C70_permutation",
    "Halo.C70_collision",
    "Halo.C70_not_collision_resistant",
    "Halo.C70_partial"
   ],
   "note": "The property is false of the code: collisions, also for chosen prefixes and suffixes, are given by a formula. C70_partial: the colliding element is unique as far as the first half round is concerned."
  },
  {
   "property": "C71",
   "status": "proved",
   "theorems": [
    "Halo.Recursion.C71_verdict",
    "Halo.Proofs.C71_leftovers"
   ],
   "note": ""
  },
  {
   "property": "C72",
   "status": "proved",
   "theorems": [
    "Halo.Circuit.C72_counts",
    "Halo.Circuit.C72_system",
    "Halo.Circuit.C72_within",
    "Halo.Circuit.C72_balanced",
    "Halo.Circuit.C72_paths",
    "Halo.Circuit.C72_gates"
   ],
   "note": ""
  },
  {
   "property": "C73",
   "status": "proved",
   "theorems": [
    "Halo.Circuit.C73_verdict",
    "Halo.Circuit.C73_unique",
    "Halo.Circuit.C73_system",
    "Halo.Circuit.C73_names",
    "Halo.Circuit.C73_plain",
    "Halo.Circuit.C73_gate",
    "Halo.Circuit.C73_ambiguous"
   ],
   "note": ""
  },
  {
   "property": "C74",
   "status": "partial",
   "theorems": [
    "Halo.Proofs.C74_commitment",
    "Halo.Proofs.C74_guess",
    "Halo.Proofs.C74_not_hiding",
    "Halo.Proofs.C74_partial"
   ],
   "note": "The property is false of the code: the prover does not blind anything, C74_not_hiding. C74_partial: a proof depends on the circuit and the witness only through the constraint system and the values of its variables."
  },
  {
   "property": "C75",
   "status": "proved",
   "theorems": [
    "Halo.Recursion.C75_is_satisfied",
    "Halo.Recursion.C75_fails",
    "Halo.Recursion.C75_honest",
    "Halo.Recursion.C75_predicts",
    "Halo.Recursion.C75_counts",
    "Halo.Recursion.C75_namespaces"
   ],
   "note": ""
  },
  {
   "property": "C76",
   "status": "proved",
   "theorems": [
    "Halo.Recursion.C76_size",
    "Halo.Recursion.C76_setup",
    "Halo.Recursion.C76_fits",
    "Halo.Recursion.C76_too_large",
    "Halo.Recursion.C76_no_history",
    "Halo.Recursion.C76_honest_step"
   ],
   "note": ""
  },
  {
   "property": "C77",
   "status": "proved",
   "theorems": [
    "Halo.Example.C77_cycles",
    "Halo.Example.C77_paper",
    "Halo.Example.C77_bitcoin",
    "Halo.Example.C77_blocks",
    "Halo.Example.C77_paper_size",
    "Halo.Example.C77_bitcoin_size",
    "Halo.Example.C77_paper_room",
    "Halo.Example.C77_bitcoin_room"
   ],
   "note": ""
  },
  {
   "property": "C78",
   "status": "proved",
   "theorems": [
    "Halo.Proofs.C78_proof",
    "Halo.Proofs.C78_leftovers",
    "Halo.Recursion.C78_recursive"
   ],
   "note": ""
  },
  {
   "property": "C79",
   "status": "proved",
   "theorems": [
    "Halo.Proofs.C79_proof",
    "Halo.Recursion.C79_recursive",
    "Halo.Recursion.C79_malleable"
   ],
   "note": ""
  },
  {
   "property": "C80",
   "status": "proved",
   "theorems": [
    "Halo.Proofs.C80_seen",
    "Halo.Proofs.C80_verifier",
    "Halo.Proofs.C80_not_binding"
   ],
   "note": ""
  },
  {
   "property": "C81",
   "status": "proved",
   "theorems": [
    "Halo.Circuit.MultiEq.C81_sound",
    "Halo.Circuit.MultiEq.C81_complete",
    "Halo.Circuit.MultiEq.C81_bits",
    "Halo.Circuit.MultiEq.C81_packed",
    "Halo.Circuit.MultiEq.C81_range_needed"
   ],
   "note": ""
  },
  {
   "property": "C82",
   "status": "proved",
   "theorems": [
    "Halo.Proofs.C82_new",
    "Halo.Proofs.C82_verify",
    "Halo.Proofs.C82_leftovers",
    "Halo.Recursion.C82_create",
    "Halo.Recursion.C82_recursive",
    "Halo.Proofs.C82_fuel",
    "Halo.Recursion.C82_fuel_recursive",
    "Halo.Example.C82_program"
   ],
   "note": ""
  },
  {
   "property": "C83",
   "status": "proved",
   "theorems": [
    "Halo.Proofs.C83_refuses",
    "Halo.Proofs.C83_prover",
    "Halo.Proofs.C83_violation",
    "Halo.Proofs.C83_returned_verifies",
    "Halo.Proofs.C83_bad_challenge"
   ],
   "note": ""
  },
  {
   "property": "C84",
   "status": "partial",
   "theorems": [
    "Halo.C84_question_mark",
    "Halo.C84_is_satisfied_question_mark",
    "Halo.C84_zeros",
    "Halo.C84_prover_wires",
    "Halo.C84_checker_wires",
    "Halo.C84_is_satisfied",
    "Halo.C84_verifier",
    "Halo.C84_prover_and_verifier_differ",
    "Halo.C84_determinism_question_mark",
    "Halo.C84_determinism_check_misses",
    "Halo.C84_no_failure_partial"
   ],
   "note": "All parts are proved except the last sentence, which is false of the code: C84_prover_and_verifier_differ is a satisfied circuit that makes the same calls for both and whose constraints the prover's values violate as the verifier sees them, and C84_determinism_check_misses is one that also passes determinism_check. C84_no_failure_partial: if no call fails, both have the same circuit."
  },
  {
   "property": "C85",
   "status": "partial",
   "theorems": [
    "Halo.C85_field",
    "Halo.C85_field_iff",
    "Halo.C85_point_iff",
    "Halo.C85_equal_points_print_differently",
    "Halo.C85_counts_iff"
   ],
   "note": "Proved for field elements and counts. False for points: C85_equal_points_print_differently; C85_point_iff says exactly which points print alike."
  },
  {
   "property": "C86",
   "status": "proved",
   "theorems": [
    "Halo.Recursion.C86_satisfied",
    "Halo.Recursion.C86_first",
    "Halo.Recursion.C86_accepted",
    "Halo.Recursion.C86_create",
    "Halo.Recursion.C86_wrong_record"
   ],
   "note": ""
  },
  {
   "property": "C87",
   "status": "proved",
   "theorems": [
    "Halo.Proofs.C87_verdict",
    "Halo.Proofs.C87_leftovers",
    "Halo.Proofs.C87_same",
    "Halo.Recursion.C87_recursive"
   ],
   "note": ""
  },
  {
   "property": "C88",
   "status": "proved",
   "theorems": [
    "Halo.Proofs.C88_proof",
    "Halo.Recursion.C88_step",
    "Halo.Recursion.C88_history",
    "Halo.Recursion.C88_any",
    "Halo.Proofs.C88_least",
    "Halo.Recursion.C88_least_recursive"
   ],
   "note": ""
  }
 ]
}