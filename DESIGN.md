# Formal model of ebfull/halo in Lean 4

The model is written by hand from the Rust text in `/repo`. `properties.jsonl` lists the properties, `MANIFEST.json`
the theorems that prove them, `seeded/LOG.jsonl` the wrong programs the theorems were tested against.

## Layout

* `lean/Verif/Model/**`  – the model: total, computable functions that follow the Rust text. Every definition cites file and lines and states its simplifications.
* `lean/Verif/Spec/**`   – small independent specifications: mathematical objects, transcriptions of standards (FIPS 180-4), what it means for a gadget to be sound.
* `lean/Verif/Lemmas/**` – helper lemmas.
* `lean/Verif/Props/*.lean` – the property theorems `Cnn_…`, with an `example` beside them showing a concrete, non-trivial case that meets the hypotheses.

Theorems with the suffix `_partial` prove a part of the property; the doc comment says what is missing. If a property
is false of the code there is also a theorem that says so, with a witness.

## Layers

1. **Words and limbs** (`Model/Limbs`, `FieldConsts`). `u64`/`u128` are `BitVec 64`/`BitVec 128`. `adc`, `sbb`, `mac` and all of `fp.rs`/`fq.rs` are modelled limb for limb. The two Rust files are identical up to the type name and the constants, so there is one model over a record of constants with two instances.
2. **Fields** (`Spec/Field`, `Spec/FieldApi`). `Represents` relates limbs to `ZMod m`; every operation is proved to commute with it. Both moduli are proved prime in Lean (Pratt certificates). Reduced limbs form a type `Elem C` which is a `Field`; `LawfulField` is the interface that the upper layers use (canonical representative, `sqrt`, `invert`, encodings, integer conversions). `Fp` and `Fq` are instances, with the limb code as implementation.
3. **Curves** (`Model/Curve`, `Spec/Curve`). The projective formulas of `ec0.rs`/`ec1.rs`, over any such field; `Denotes b P A` says that the point `P` of the code stands for the point `A` of Mathlib's group of the curve `y² = x³ + b`. `HaloCurve E F S` collects what holds for both curves (`ec0` over `Fq` with scalars `Fp`, `ec1` over `Fp` with scalars `Fq`): the group is a module over the scalar field, the order is prime, the endomorphism is a scalar.
4. **Utilities** (`Model/Util`, `Mem`). Multi-exponentiation, FFT, polynomial product, folding. The number of cores is an argument. Threads work on disjoint parts of memory; `threads_deterministic` proves that every interleaving of such threads gives the same result. `f64::ln` is a parameter with bounds (C18).
5. **Rescue** (`Model/Rescue`). The sponge as a state machine.
6. **Circuits** (`Model/Circuit`, `Eval`, `Dev`). A circuit is a `Prog F α`, a tree of the calls it makes to the driver (allocate, multiply, constrain, expose an input, read a value), so that one and the same program is run by every backend: the prover's, `is_satisfied`, `SxEval`, `SyEval`, the recorder of `dev.rs`. `Basic.synthesize` is the driver. `circuitSystem` is what a program asks for, as a constraint system (`Spec/System`).
7. **Gadgets** (`Model/Gadget/**`, `Spec/Gadget`). *Soundness* (`Sound`): every assignment that satisfies the constraints of the gadget gives its outputs the meaning in question – not just the honest assignment. *Completeness* (`Complete`): run with known values, the gadget does not fail and its own assignment satisfies its constraints. `Enforces`, `Provable` and `Forgeable` lift this to whole constraint systems. SHA-256 is compared with a transcription of FIPS 180-4.
8. **Proof system** (`Model/Proofs/**`, `Spec/Proofs`, `Spec/Extract`). The transcript is a parameter (`Transcript T F`: a state, `absorb`, `squeeze`); the one of the code is an instance (`Transcript.rescue`). Theorems hold for every transcript. Points are any type with `CurveOps` that satisfies `LawfulOps`, and the theorems are stated for the two curves.
9. **Recursion** (`Model/Recursion/**`). The verification circuit of `recursion.rs`, gadget by gadget, and `RecursiveProof`. `Lemmas/Recursion/Mode` states soundness and completeness of a gadget in one lemma.

Panics are `none` or `Fail.panic`, errors of synthesis are `Fail.…`; the order in which different panics occur is not modelled.

## Simplifications

* `for fork in 0..` loops that search for a square challenge have a fuel argument; the verifier's is 256, since its counter is a `u8`. (In the code the prover's counter is a field element and does not overflow, the verifier's overflows: a panic in debug builds.)
* The prover computes the entries of one round before it appends them to the transcript; the code alternates. The entries do not depend on the transcript.
* `Params::new` draws from a stream of candidate encodings that is a parameter; the Blake2 hash is not modelled. The fields `g` and `generators_xy` of `Params` are not used by `proofs.rs` and not modelled there.
* Integers are unbounded where the code uses `usize` and overflow cannot occur for sizes below `2^30`; the bounds are hypotheses.
* Namespaces and annotations of constraint systems carry no meaning and are dropped, except in `Named` (C72, C73), as `dev.rs` records them.

## How each property is proved

| id | model | proof |
|----|-------|-------|
| C01–C05 | limb model | carry-chain lemmas to `Nat`, then congruences |
| C06 | `pow`, `powVartime` as the double loop | induction over the exponent bits |
| C07, C08, C10 | `invert`, `sqrt`, constants | Lucas/Pratt primality certificates; Fermat; Tonelli–Shanks loop invariant |
| C09 | `batchInvert` over limbs (`Fe.batchInvert`) and over the elements of any field (as the expansion of challenges uses it) | induction over the slice |
| C11, C16, C17 | projective model over a field | algebra, case analysis against Mathlib's group law, no 2-torsion from a cubic-residue check |
| C12 | bit loop | induction over bits |
| C13, C14 | – | `r • G = 0` by kernel evaluation of the model, a counting bound on the curve, Cauchy; then cyclicity |
| C15 | byte model | C04 and C08 |
| C18–C22 | list/array algorithms | induction; schedule and core count are arguments |
| C23, C52, C53 | scalar ladder | induction over bit pairs; for injectivity a norm bound in the Eisenstein integers |
| C24, C25 | native Rescue | false: negation with witness (degenerate matrix), plus what does hold |
| C26 | state machine | invariant over call histories |
| C27–C31 | circuit layer | induction over expressions and programs; simulation between backends; polynomial identities, degree bound |
| C32 | recorder of `dev.rs` | false: witness; partial: exact characterization |
| C33–C39 | gadgets | compositional soundness and completeness lemmas (`Logic.sound`, `Logic.complete`) |
| C40, C41, C48–C51 | point gadgets | the same, against the group; forged assignments for the false ones |
| C58 | `multiply_fast`, `multiply_inv_fast` | induction over the bits, which additions are exceptional is characterized by the leading parts of the scalar (`Spec/Gadget/Fast`); false for one bit and for the scalar -1 |
| C42, C43 | commitments, openings | linearity; induction over rounds with the invariant that commitment and opening belong to the folded vectors |
| C44 | `Proof::new`, `Proof::verify` | simulation of the prover by the verifier; C30, C31, C42, C43. The prover returns exactly if no round of its opening argument gets stuck (`Spec/Stuck`): hypotheses of the form "every state of the transcript yields a square" are avoided, since they are most likely false of the sponge; where they remain (C44_prover_returns, C54, C67) the transcript is interactive or scripted, or the theorem has a form without them |
| C45, C46 | leftovers, deferred records | exact characterizations; false in corner cases, with witnesses |
| C47 | base-case switch | compositional, as C33 |
| C56 | `verify_deferred` in the circuit | compositional; exact set of accepted records, by a game of a cheating prover; false, with a witness |
| C59 | commitment to the public inputs, native and in the circuit | induction over the bits against a sum over the generators (`Spec/RecursionCommit`) and against `k(Y)` of the proof system |
| C60 | histories of `create_proof`, `verify` | induction over histories (`Made` in `Spec/RecursionHonest`); each proof is right in every respect (`Valid`), by C44 for a verifier that compares points exactly, C57, C59 and C45 |
| C61 | the verification circuit of an honest step | a run of the native verifier is recorded (`Run`), and every gadget of the circuit is shown to follow it (`Lemmas/Recursion/Follow*`) |
| C62 | `examples/paper.rs`, `examples/bitcoin.rs` (their circuits) | `Twin` for SHA-256, multi-limb multiplication and the rest of the examples; for the panic, the verifier's run is compared with that of a circuit which only checks the payload (`Turns`) |
| C63, C64 | what the Bitcoin circuit accepts | soundness and completeness against `Spec/Bitcoin` (`Extends`, `Follows`); for C63 a cheating prover supplies other values for the same constraints (`Twin`), for C64 `Must` says what follows if the computed values satisfy the constraints. `stepCircuit` is the part of the verification circuit around the user's circuit |
| C65 | recursion as a whole | false: the attack is a program (`Spec/Forgery`) that uses the model's prover with a circuit in which some sums are claimed instead of computed (`Spec/CheatAdd`, `Spec/CheatCircuit`); `Twin` gives that the constraints are those of the code, the lemmas for C61 (generalized to folds that follow a plan) that they are satisfied, those for C60 that the verifier accepts; `C65_last_step_partial` (`Spec/Attest`) is what every satisfying assignment does say, by going through the circuit with `Sound` |
| C66 | `Proof::verify` with everything it calls | special soundness (`Spec/Soundness`): a prover is a family of functions from the challenges so far to the next message, the verifier's transcript is scripted; the extractor of C54 opens the instances at each leaf (`SoundTree`, `SoundNode`; five challenges per round are enough to avoid folded commitments that are the identity, where the code's `==` accepts everything), Lagrange interpolation in `z` separates what the first and the fourth instance combine, binding identifies the vectors found for different challenges, and polynomial identities in `x`, `yNew`, `y` give the constraints (`SoundPoly`, `SoundCircuit`, `SoundAlgebra`). For the probability see C68 |
| C67 | `Proof::verify` for old leftovers that are chosen last | the attack: all commitments are the identity except the new one to `s(X, yNew)`, all openings are 0 except that of `t⁺`, which the deferred relation determines, and `g_new` of the old leftovers is the difference between a commitment to a constant and the combination of the others; the opening argument is made honestly (lemmas for C43). `falseCircuit` asks for `1 = 0` |
| C68 | as for C66, with challenges drawn from finite sets (`Spec/SoundnessError`) | the probability is the fraction of the outcomes that are accepted; if it exceeds the sum of the errors of the places, then an averaging argument, place by place, finds a tree of accepted challenges that is large enough for C66 (`Heavy`). That hash functions behave like random challenges (Fiat–Shamir) is outside the model. `Spaces` counts the values from which the code draws: its challenges have 127 free bits, of which the scalar uses 125; the number of square roots in the rounds stays a parameter. `Scripted`: an accepted run with any transcript is one of these outcomes |
| C69 | `Proof::verify`, `Deferred::verify`, `Leftovers::verify` | an equivalence (`Total`): the rounds by induction, the old and new challenges have square roots, `compute_b` gets at least one challenge; the converse reads the conditions off a successful run. The challenges are those of the transcript in the states that the verifier reaches (`Proof.Draws`), so nothing is assumed about other states. Remark: these panics can be triggered by whoever sends the proof or the old leftovers |
| C70 | `Rescue` | false: after the first half round the state depends on a single sum, which one absorbed element can be made to take any value (explicit formula); lifted to histories with the refinement of C26. That this is the only such element is proved for the first half round |
| C71 | `RecursiveProof::verify`, `verify_inner` | an equivalence from C69, the two checks of C45 (for leftovers: they panic exactly if the number of challenges is not `k` or one is not a square), the shape of the circuit without values (C57) and the number of bits of the public inputs (C46). Remark: the number of public inputs only constrains the sum of the four lengths, so the leftovers of the own curve and the two lists of the deferred record may trade challenges; the other lengths are not checked |
| C72 | `constraint_count`, `compute_path`, `ConstraintSystem::namespace` | circuits with namespaces (`Named`), and a specification that counts by differences of running totals (`Tally`); a simulation by induction on the circuit. Remarks: a namespace whose path occurs twice is reported once, with the counts of the last occurrence; one with an empty name at the top is overwritten by the totals; the gates of a gadget depend on whether a half-used gate was left over before it |
| C73 | `is_satisfied`, `SatisfactionError`, names of variables and gates | circuits with names (`Named`), and a specification that notes for every gate and linear constraint where it was asked for (`Traced`) and says which answer is right (`Verdict`, shown to be unique); a simulation by induction on the circuit. The message `allocation(…)` never occurs, as a gate of allocations always holds. Remarks: names can be used twice and linear constraints are all called `TODO_LINEAR`, so a message may not tell which constraint is violated (`C73_ambiguous`) |
| C74 | `Proof::new` | **false**: the commitment in a proof is a sum over all variables with public generators (`C74_commitment`), so guesses can be tested (`C74_guess`, up to relations between the generators), and for a circuit with one free secret the proof determines it (`C74_not_hiding`, without any assumption on the generators but that one of them is not the identity). `C74_partial`: a proof depends only on the system and its assignment |
| C75 | `recursive_is_satisfied`, `recursive_constraint_count` | the code repeats what `create_proof` does before the proof (`carried`, `newCircuit`), so this is C29 together with the public inputs of C57; honest steps are C61, and the prediction is C44 for the leftovers of an honest history. The counts are those of C72 for the circuit without namespaces; `C75_namespaces`: namespaces do not change the totals |
| C76 | size of the verification circuit | a program logic that counts (`Costs` in `Lemmas/Cost`): whatever variables and values a gadget is given, it asks for so many allocations, multiplications and linear constraints; the gadgets fold constants, so their cost depends on which of their arguments are constant, and an invariant keeps track of this (for Rescue: whether the sponge has been permuted). The formula is `verificationSize` in `Spec/CircuitSize.lean`. `C76_fits`, `C76_too_large`: it is below `2^(k-2)` from `k = 22` on and not before; `C76_no_history`: for `k <= 21` no proof is ever made; `C76_honest_step`: from `k = 22` on, C75's prediction needs no hypothesis about counts |
| C77 | `main` of `examples/paper.rs` and `examples/bitcoin.rs` | the loop of both programs is one model (`Model/Example/Main`); induction over the payloads with C76, which needs that the user's circuits fit: an upper bound for the Bitcoin circuit in a second counting logic (`AtMost` in `Lemmas/Cost/Bound`), as its gadgets fold constants depending on the bits. The parameters come from C55. That the ten blocks form a chain is a computation in the kernel (`C77_blocks`). |
| C78 | what the verifiers accept | `Spec/Acceptance` says which five claims a proof reduces its statement to, as points of the curve, and what it means that the last message opens them; refinement of `verify_proof` round by round (`Lemmas/Proofs/Acceptance`), then `Proof::verify` step by step. With C45 and the shape of the verification circuit (C57) for `RecursiveProof::verify`. That the deferred record which the proof carries is checked had followed from no other theorem, as a seeded mutation showed. |
| C79 | malleability | `Spec/Malleable` says when two proofs are alike: the same points, openings, first five entries and lower halves of challenges. By C78 it is enough that everything in the characterization respects this relation: the transcript, round by round, the folded claims, the square roots, the bytes of the public inputs. `C79_malleable` gives the altered proofs explicitly; it negates "an accepted proof cannot be changed into another one". |
| C80 | what the challenges depend on | `Spec/Binding` writes the messages of a proof as lists of coordinates. Invariant over absorptions: two sponges whose messages agree off the multiples of twelve differ at most in the first element of the block that is being filled, and this element does not influence the permutation (C24). The endomorphism `(x, y) ↦ (βx, y)` is multiplication by a scalar (C14), so points and scalars can be replaced in these positions. `C80_not_binding` negates "the challenges bind the prover to its messages". `verify_result` says what the verifier returns, whether or not it accepts. |
| C81 | packed equalities | `Model/Gadget/MultiEq` as programs on the constraint system (the methods that pass calls on to the inner constraint system are left out). Invariant: the pending sides are integers below `2^bits_used`, and their equality implies the collected ones (digits of a sum `a + 2^n b` are unique below `2^254 < m`). `C81_range_needed` is the counterexample without ranges. |
| C82 | independence of the machine | Two runs of the programs in lockstep (`SameResult`): points are related if they denote the same point, everything else is equal. Commitments, products of polynomials and collapsed generators by C18–C21; transcripts, comparisons and witnesses see points through `get_xy` only, so the verification circuits of both runs are equal as programs. The programs of the examples follow step by step. `C82_fuel`: the model's bound on how often a challenge is tried (the code has none) has no influence on what is returned. |
| C83 | the prover's own check | The constant coefficient of the prover's product is `k(y) y^n` plus the violation of the constraints at `y` (`Spec/ProverCheck`), a nonzero polynomial if the values are wrong. Execution of `Proof::new` up to the assertion; the simulation by the verifier (C44) does not use that the values satisfy the circuit. `C83_bad_challenge` is a run with a bad challenge. |
| C84 | circuits that go on after a failed call | `Model/Recover` has programs that see the results of their calls, and the synthesizer statement by statement, with the state that a failed call leaves. Refinement: for programs that use `?` it agrees with the other model, on every backend. For the prover and the checker a failed call leaves exactly the state that zeros would leave (simulation, using that wires not handed out carry zero), so C28 and C29 carry over. The verifier's backends invoke no closures, so nothing fails there. `C84_prover_and_verifier_differ` is the counterexample to agreement of prover and verifier. `determinism_check` is modelled for such circuits too; `C84_determinism_check_misses` is a circuit that passes it and is satisfied, for which prover and verifier differ. |
| C85 | printed values | `Model/Print` writes the characters that `{:?}` gives for field elements and points and `{}` for `ConstraintCounts`. `hexNat` (`Spec/Print`) reads a hexadecimal text; the digits of a field element denote its least representative (from C04), and texts determine values because their parts have fixed length or end at a letter. Equal points may print differently (`C85_equal_points_print_differently`); `C85_point_iff` says exactly when. |
| C86 | the code only extends right proofs | `Must` (`Lemmas/Gadget/Must`) follows the values that the code itself assigns: if the constraints hold for these, then the program's comparisons came out right. Applied to every gadget of the verification circuit for an arbitrary old proof (`Lemmas/Recursion/Extend*`): the circuit computes the same verdict as `verify_inner` (including the case of additions of equal points, where the prover's values fail), enforces the deferred record, and runs the user's circuit. `Extends` (`Spec/Extend`) is the conclusion. With C83 this becomes a statement about `create_proof` itself. A prover that does not run the code is not bound by this (C65). |
| C87 | which circuit a proof is for | The verifier synthesizes the circuit with the backend that records public inputs, which `Sim` relates to the system of the circuit, so the results for two circuits with the same positions are equal (`C87_verdict`). For the leftovers, the vector of `s(X, y)` is a polynomial in `y` whose coefficients are the constraints; two circuits that `Differ` (`Spec/Which`) have the same vector only at the roots of a polynomial that is not zero, and likewise for the zero vector, which matters because the check accepts the identity (C45). The conclusion names the two vectors (`Collide`), since in a cyclic group of prime order colliding vectors always exist. `C87_recursive` carries this over to recursive proofs: by `C87_verdict` the verifier computes the same new leftovers for both pairs of user circuits and checks them for both. Its instance are two user circuits that want opposite bits: the user's circuit is synthesized last, so the two verification circuits differ in the last constraint, and C76 gives the sizes. |
| C88 | proofs do not grow | `Spec/Size` lists all points and scalars of a proof. The rounds of the prover of openings are counted by induction on their number; `Proof::new` always opens five claims (`C88_proof`, without any hypothesis on the parameters). `C88_step` inverts `create_proof`: what it carries along comes from the verifier of the old proof, which returns as many challenges as there are rounds, from leftovers that `Leftovers::verify` did not panic on, or from dummies. The challenges in the deferred record are those of the old proof's first leftovers, which nothing in that step counts, so the induction over the history (`C88_history`) carries their number along. For an old proof of unknown origin (`C88_any`) their number is bounded because the verifier panics unless the public inputs, which contain them, have the number that the circuit exposes (C57). The lower bounds for accepted proofs (`C88_least`, `C88_least_recursive`) use the same count, and that the verifier panics on rounds with fewer than five entries and accepts only after it has compared five results. |
| C57 | whole verification circuit | a relation `Twin` between programs that make the same calls whatever values they know (`Spec/Gadget/Twin`), proved for every gadget; lifted to constraint systems |
| C54 | opening verifier | special soundness: induction over a tree of transcripts, Lagrange coefficients for three challenges; forgery for the identity |
| C55 | `Params::new` | induction over the attempts |

## Where the code does not have the property

* C17 – `ct_eq` of both curves tests `self.is_zero()` twice, so `identity == P` is true for every `P`. Consequences: C45 (leftovers with `y = 0` verify with any commitment), C54 (the identity can be opened to any value at any point).
* C24, C25 – the "MDS" matrix is `(i+1)*j`: rank one with a zero column. Element 0 of each absorbed block is ignored, the image of the permutation is a line and outputs are predictable.
* C70 – for the same reason collisions can be computed with a formula: one element of the last block, in any position but the first, can be chosen such that the sponge reaches the state of any other history (chosen prefixes and suffixes).
* C32 – `determinism_check` never checks that the second run consumed all recorded events.
* C35 – `unpack_fe` allocates 256 bits for a field of 255 bits: `x` and `x + m` are both accepted.
* C40, C41 – `CurvePoint::add` and `add_incomplete` do not link their outputs to the slope (two constraints are commented out, "TODO: Fix"), so any point is accepted as the sum of two points other than the identity; `double_and_add_incomplete` leaves the slope free if the points are equal, so for no point does it enforce `[2]P + P`.
* C46 – encodings keep 16 bytes of challenges; larger scalars collide, and the boundary between lists of challenges is not determined.
* C48 – the coordinates of an identity point gadget are not constrained.
* C49 – multiplication by a challenge starts from `[3]P`, which comes from an addition (C41). A prover that starts elsewhere gets nearly every point accepted as the product: for every point but the identity and every challenge there are at most 190 exceptions.
* C59 – with more public bits than generators, the `zip` in the circuit drops the rest silently, while the verifier's native loop panics at a set bit.
* C58 – `multiply_fast` starts from `[3]P`, which accounts for two bits: with a single bit it returns three times the point. For the scalar -1, the last step of its loop adds a point to its negation, so the prover fails with a division by zero.
* C62 – `examples/bitcoin.rs` computes the target and the work while synthesizing: a payload with a mantissa of zero, or a size below 4 or above 32, makes `verify` panic, whatever the proof is.
* C63 – `examples/bitcoin.rs:216` allocates the start of the square-and-multiply loop without constraining it to be one ("TODO make constant"). A cheating prover sets it to zero, so the target is zero, and any work can be claimed. `enforce_equality` packs 256 bits into one field element, so a header with another hash is accepted. (Besides, the remainder of the division is not compared with the target; the code says so.)
* C64 – `examples/bitcoin.rs:280-289` doubles and adds the bits of each byte from the least significant one, so the value of the product gate is the target with the bits of each byte reversed. The prover's values satisfy the gate only if each byte of the mantissa is a palindrome. This is so for the `0x1d00ffff` of the first 32256 blocks, but not for the next target.
* C65 – the consequence of C40 and C41 for the recursion: a prover can choose the results of the additions in the last round of the inner product argument such that the final comparison in the circuit succeeds. So the circuit does not check the inner product argument at all. The attacker makes up a proof for any old payload (only its deferred record, its first commitments and its folded generator have to be right, since these are carried to the final verifier) and continues with a new payload; the result is accepted. What remains of the guarantee is that the user's circuit is satisfied for the last step, that the old deferred record is true up to signs, and that the challenges in the public inputs belong to a transcript of some messages (`C65_last_step_partial`). Even the latter is weaker than for `Proof::verify`: the circuit takes the low bits of any 256-bit number that is the squeezed value in the field, so there can be several challenges for one transcript (`IsChallenge`). A repair of the additions invalidates the proof of C65's negation at `Lemmas/Gadget/EccCheat`.
* C67 – `Proof::verify` (`src/proofs.rs:784-995`) absorbs neither the points nor the challenges of the old leftovers. The recursion binds them through the public inputs, but the API of `Proof` leaves this to its user and does not say so.
* C74 – `Proof::new` uses no randomness and `r_commitment` is not blinded, so a proof determines the witness up to relations between generators: proofs are not zero-knowledge. (The README makes no claim about this.)
* C79 – verifiers ignore parts of a proof, so proofs are malleable: from an accepted proof anyone can make others.
* C80 – because of C24 the challenges of a proof do not depend on every twelfth element of its messages, among them the x coordinates of several commitments, so the challenges do not bind the prover to these points.
* C84 – a circuit that goes on after a failed `alloc` can be satisfied according to `is_satisfied`, and still cannot be proved: the failed call leaves a gate for the prover, but not for the verifier, so that all later variables are shifted. This holds although the circuit makes the same calls whoever runs it. Nor does `determinism_check` always notice: it does not count a failed call, and does not ask for all recorded events (`C84_determinism_check_misses`). If no call fails, both sides have the same circuit (`C84_no_failure_partial`).
* C85 – equal points may print differently: `{:?}` shows projective coordinates, and adding the identity changes those of every point whose `y` is not `1`.
* C56 – the circuit takes any square root of a challenge, so the folding vector is determined up to sign: a deferred record with the wrong sign of `gx`, or of all the `b`s, passes in the circuit but not natively.

Other remarks on the code, not all with a theorem: `.sqrt().unwrap()` panics on leftovers from an attacker; `compute_sx` ignores
variables beyond `n`; the verifier's fork counter is a `u8`; `Params::new` panics if a candidate encodes the identity;
`RecursiveProof::create_proof` ignores whether the old proof verified; the sizes of the encoded leftovers assume that both parameters have the same `k`;
the native final check of openings uses `==` on points (C17), while the circuit compares coordinates; `obtain_scalar_from_bits` takes unknown bits for zero.

## Trusted base

* Lean 4.33.0 kernel; Mathlib definitions used in statements (`ZMod`, `WeierstrassCurve`, `Module`, `Finset.sum`, …).
* Axioms: at most `propext`, `Classical.choice`, `Quot.sound` for every theorem. No `native_decide`; concrete computations are `decide +kernel`, evaluated by the kernel.
* Reading of the Rust source by hand: the model is not extracted.
* Modelled: `fields/*`, `curves/*`, `util.rs`, `rescue.rs`, `circuits.rs`, `synthesis.rs`, `dev.rs`, `gadgets/{boolean,num,uint32,uint64,sha256,rescue,ecc,multieq}.rs`, `proofs.rs`, `recursion.rs`, `examples/paper.rs` and `examples/bitcoin.rs` (of their `main` everything but what is printed).
* Not modelled: memory and threads beyond disjoint chunks, constant-time behaviour, `rand`, the `Debug` output of types other than field elements and points, formatting flags, timing, the Blake2 hash that derives generators (a parameter), the names of variables, gates and namespaces of the gadgets in the library (`constraint_count` and `is_satisfied` are modelled for arbitrary circuits with names; for `recursive_constraint_count` only the totals are modelled). Circuits are modelled as programs that pass errors of the constraint system on with `?`, as every circuit in the repository does; those that do not are modelled for synthesis, `is_satisfied` and `determinism_check` only (C84). `gadgets/multieq.rs` is modelled (C81), although `gadgets/mod.rs` does not include it in the crate.
