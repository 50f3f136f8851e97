{"id": "C01", "title": "Polynomial evaluation and dot product", "statement": "eval(coeffs, x) returns c0 + c1*x + ... + ck*x^k, and dot(a, b) returns the sum of the pairwise products; dot panics exactly when the two sequences have different lengths.", "quantifier": "every field, every coefficient list of any length, every evaluation point", "why_tests_cant": "Coefficient lists are unbounded and field elements cannot be enumerated.", "anchors": ["crates/ragu_arithmetic/src/util.rs: eval, dot"]}
{"id": "C02", "title": "Division by a linear factor", "statement": "factor(p, b) returns the coefficients of the quotient q with p(X) = q(X)*(X-b) + p(b), with one coefficient fewer than p; factor_iter yields the same coefficients highest degree first; both panic exactly on the empty list.", "quantifier": "every coefficient list and every root b", "why_tests_cant": "A quotient that is right on sampled polynomials can be wrong at another length or root; the identity is used for polynomial queries of every size.", "anchors": ["crates/ragu_arithmetic/src/util.rs: factor, factor_iter, factor_iter_inner"]}
{"id": "C03", "title": "Geometric sum", "statement": "geosum(r, m) returns 1 + r + ... + r^(m-1) for every m, including m = 0, r = 0 and r = 1.", "quantifier": "every field element r and every exponent m", "why_tests_cant": "The doubling loop has a different path for each binary expansion of m; there are infinitely many.", "anchors": ["crates/ragu_arithmetic/src/util.rs: geosum"]}
{"id": "C04", "title": "Multi-scalar multiplication", "statement": "mul(coeffs, bases) returns the sum of coeff_i * base_i for any number of terms, whatever bucket width the size-based lookup selects.", "quantifier": "every abelian group, every list of scalars and bases of any length, every window size the lookup can return", "why_tests_cant": "The windowed bucket method has different code paths for each window width, bucket state and digit pattern; tests sample a few sizes.", "anchors": ["crates/ragu_arithmetic/src/util.rs: mul, bucket_lookup"]}
{"id": "C05", "title": "Polynomial from roots", "statement": "poly_with_roots(roots) returns the monic polynomial whose value at every x is the product of (x - r_i), of degree equal to the number of roots.", "quantifier": "every list of roots of any length that fits the field's two-adicity", "why_tests_cant": "The product tree has a different shape (odd leftovers) for every length.", "anchors": ["crates/ragu_arithmetic/src/util.rs: poly_with_roots"]}
{"id": "C06", "title": "FFT computes the evaluations over the domain", "statement": "fft maps coefficients (c_j) to the values p(omega^i), for every power-of-two size; the iterative path used for small sizes or many threads and the recursive path return identical results; ifft inverts fft.", "quantifier": "every log size, every input vector, every thread count, every root omega of the right order", "why_tests_cant": "Both butterfly schedules are parameterised by size and thread count; vectors over the field cannot be enumerated.", "anchors": ["crates/ragu_arithmetic/src/fft.rs: fft, bitreverse, recursive_butterfly_arithmetic", "crates/ragu_arithmetic/src/domain.rs: Domain::fft, Domain::ifft"]}
{"id": "C07", "title": "Evaluation domains", "statement": "Domain::new(k) has an omega that is a primitive 2^k-th root of unity with matching inverses, contains(x) holds exactly for its powers, and ell(x, m) returns the first m Lagrange basis values at x, or None exactly when x is in the domain.", "quantifier": "every k up to the two-adicity, every x, every m up to the domain size", "why_tests_cant": "Statement over all points of a 255-bit field and all sizes.", "anchors": ["crates/ragu_arithmetic/src/domain.rs: Domain::new, contains, ell"]}
{"id": "C08", "title": "Symbolic coefficients behave like field elements", "statement": "Addition, multiplication and conversion of the special-cased coefficient enum agree with the field operations on the represented values, and is_zero is true exactly when the represented value is zero.", "quantifier": "every pair of enum cases and every field payload, in every field (for is_zero: every field of characteristic other than 2, such as the Pasta fields)", "why_tests_cant": "Field payloads are unbounded; special cases (One, Two, NegativeOne) could collide with arbitrary values.", "anchors": ["crates/ragu_arithmetic/src/coeff.rs: Coeff"]}
{"id": "C09", "title": "Sparse polynomial round trip", "statement": "Building a sparse polynomial from a coefficient list and reading all coefficients back returns the list padded with zeros to the rank's size; construction panics exactly when the list is too long; reading from both ends in any interleaving yields each coefficient once in order. Stored blocks begin and end with a non-zero value, keep gaps of up to four zeros and are separated by at least five.", "quantifier": "every coefficient list (every pattern of zero runs), every rank, every schedule of front/back reads", "why_tests_cant": "The gap-splitting rule depends on every zero-run pattern; the number of patterns is exponential.", "anchors": ["crates/ragu_circuits/src/polynomials/sparse/mod.rs: from_coeffs, extend_runs, iter_coeffs, CoeffIter"]}
{"id": "C10", "title": "Sparse polynomial arithmetic is dense arithmetic", "statement": "After any sequence of additions, subtractions, scalings, negations and dilations the coefficients of a sparse polynomial equal those of the corresponding dense computation, and its blocks stay non-empty, in range, sorted and non-overlapping.", "quantifier": "every history of operations starting from any constructed polynomials", "why_tests_cant": "The block-merging code depends on the overlap pattern of the operands; histories are unbounded.", "anchors": ["crates/ragu_circuits/src/polynomials/sparse/mod.rs: combine_assign, add_assign, sub_assign, scale, negate, dilate, assert_invariants"]}
{"id": "C11", "title": "Sparse evaluation, reverse dot product and folding", "statement": "eval(x) is the sum of coeff_k x^k; revdot(p,q) is the sum over k of p_k * q_(N-1-k) with N the rank size; fold(polys, s) is the Horner combination with the first polynomial carrying the highest power.", "quantifier": "every pair of well-formed sparse polynomials and every field point", "why_tests_cant": "Two-pointer block intersection has unboundedly many overlap patterns.", "anchors": ["crates/ragu_circuits/src/polynomials/sparse/mod.rs: eval, revdot, fold"]}
{"id": "C12", "title": "Commitments are linear in the coefficients", "statement": "commit(p) equals the sum of coeff_k * G_k over all k (whatever the block layout), so commit(p+q) = commit(p)+commit(q) and commit(s*p) = s*commit(p); it panics exactly when there are fewer generators than coefficients.", "quantifier": "every sparse polynomial, every scalar, every generator list", "why_tests_cant": "Requires all block layouts and all group elements.", "anchors": ["crates/ragu_circuits/src/polynomials/sparse/mod.rs: commit", "crates/ragu_arithmetic/src/util.rs: mul"]}
{"id": "C13", "title": "Wire views place values at the documented degrees", "statement": "Building a trace view puts a_i, b_i, c_i, d_i at degrees 2n+i, 2n-1-i, i, 4n-1-i; a wiring view at 2n-1-i, 2n+i, 4n-1-i, i; the reverse dot product of a trace view with a wiring view is sum of a*a' + b*b' + c*c' + d*d'; building panics exactly when a buffer is longer than n.", "quantifier": "every four buffers of any lengths and values, every rank", "why_tests_cant": "All lengths and zero patterns.", "anchors": ["crates/ragu_circuits/src/polynomials/sparse/view.rs: View::build, Trace::map_to_blocks, Wiring::map_to_blocks"]}
{"id": "C14", "title": "The gate-enforcement polynomial t(X,Z) is evaluated consistently", "statement": "tz(z).eval(x) = tx(x).eval(z) = txz(x,z) = -sum_{i<n} x^(4n-1-i) (z^(2n-1-i) + z^(2n+i)) for all x and z including zero; the in-circuit evaluation routine yields the same value on every satisfying assignment with x,z nonzero, and its predicted value agrees.", "quantifier": "every x, z in every field, every rank", "why_tests_cant": "The closed form uses log-many doublings; agreement must hold at every point.", "anchors": ["crates/ragu_circuits/src/polynomials/mod.rs: tz, tx, txz", "crates/ragu_circuits/src/polynomials/txz.rs: Evaluate"]}
{"id": "C15", "title": "Wiring polynomial: the three evaluators agree", "statement": "For every circuit, sx(x).eval(y) = sy(y).eval(x) = sxy(x,y), and all equal the mathematical wiring polynomial determined by the circuit's gates and linear constraints, for all x and y including zero.", "quantifier": "every circuit (every sequence of gates, allocations, linear combinations, constraints and nested routine calls), every x and y", "why_tests_cant": "The three evaluators traverse the circuit with entirely different bookkeeping; circuits form an infinite family.", "anchors": ["crates/ragu_circuits/src/s/sx.rs: eval", "crates/ragu_circuits/src/s/sy.rs: eval", "crates/ragu_circuits/src/s/sxy.rs: eval", "crates/ragu_circuits/src/raw.rs: orchestrate", "crates/ragu_circuits/src/floor_planner.rs"]}
{"id": "C16", "title": "Virtual wire reference counting is safe", "statement": "While evaluating s(X,y), for any order in which wire handles are cloned and dropped, a virtual wire is released exactly when its last reference goes away, its whole weight is distributed exactly once to its terms, slots are reused only when empty, and at the end every virtual wire is free.", "quantifier": "every schedule of allocation, linear combination, constraint, clone and drop", "why_tests_cant": "Release order depends on drop order in user code; leaks or double distribution occur only on specific interleavings.", "anchors": ["crates/ragu_circuits/src/s/sy.rs: VirtualTable::{add,free,update,alloc}, TermCollector, TermEnforcer"]}
{"id": "C17", "title": "Circuit metrics and floor plan", "statement": "The measured gate and constraint counts equal what every other driver consumes, and the floor plan gives each routine segment its own gate range and constraint range: ranges are disjoint, cover exactly [0,total), appear in call order and start at zero for the root.", "quantifier": "every circuit with any nesting of routines", "why_tests_cant": "Segments depend on arbitrary nesting; overlap would only appear for particular shapes.", "anchors": ["crates/ragu_circuits/src/metrics.rs: Counter, eval_raw", "crates/ragu_circuits/src/floor_planner.rs: floor_plan"]}
{"id": "C18", "title": "Trace generation does not depend on scheduling", "statement": "The trace obtained when routines with known predictions are executed later, in parallel and in any completion order, is the same as the one produced by sequential in-order execution.", "quantifier": "every circuit, every assignment of routines to deferred or inline execution, every completion order", "why_tests_cant": "Thread schedules are unbounded and nondeterministic.", "anchors": ["crates/ragu_circuits/src/trace.rs: Evaluator::routine, finish, eval, assemble"]}
{"id": "C19", "title": "Satisfying assignments satisfy the revdot identity", "statement": "If every gate and every linear constraint of a circuit holds for an assignment then the assembled trace polynomial r satisfies <r, r(zX) + s(X,y) + t(X,z)> = k(y) for all y and z and every blinding value.", "quantifier": "every circuit, every satisfying assignment, all challenges y,z, all blinding factors", "why_tests_cant": "Universally quantified over circuits, witnesses and challenges.", "anchors": ["crates/ragu_circuits/src/trace.rs: Trace::assemble", "crates/ragu_circuits/src/raw.rs: orchestrate", "crates/ragu_circuits/src/ky.rs", "crates/ragu_circuits/src/polynomials/mod.rs: tz", "crates/ragu_circuits/src/s/sy.rs"]}
{"id": "C20", "title": "The revdot identity implies satisfaction", "statement": "If the revdot identity holds for all y and z for some trace polynomial, then every multiplication gate (a*b=c, c*d=0) and every linear constraint of the circuit holds for the wire values it encodes, the constant wire is 1, and the outputs equal the public instance.", "quantifier": "every circuit, every (adversarial) trace polynomial", "why_tests_cant": "A universal soundness statement; no test suite can enumerate adversarial traces.", "anchors": ["crates/ragu_circuits/src/raw.rs: orchestrate", "crates/ragu_circuits/src/s/sy.rs", "crates/ragu_circuits/src/polynomials/mod.rs: tz", "crates/ragu_circuits/src/polynomials/sparse/mod.rs: revdot, dilate"]}
{"id": "C21", "title": "Public input polynomial", "statement": "k(y) equals y^m*o_1 + ... + y*o_m + 1 for the m output values in write order; it has constant term 1; two instances of the same length with equal k(y) for all y are equal.", "quantifier": "every output list and every y", "why_tests_cant": "All lengths and values.", "anchors": ["crates/ragu_circuits/src/ky.rs: eval", "crates/ragu_circuits/src/horner.rs: Horner"]}
{"id": "C22", "title": "Capacity limits are enforced exactly", "statement": "Turning a circuit into a circuit object fails with a gate-bound error exactly when it needs more than n gates and a constraint-bound error exactly when it has at least num_coeffs constraints; a registered circuit never hits these limits later in any evaluator or in trace assembly. The counts that a registry reports for it are its numbers of gates and constraints.", "quantifier": "every circuit size, every rank", "why_tests_cant": "Boundary behaviour over all circuit sizes in several independent drivers.", "anchors": ["crates/ragu_circuits/src/lib.rs: into_circuit_object", "crates/ragu_circuits/src/s/sx.rs: advance_gate, enforce_zero", "crates/ragu_circuits/src/trace.rs: assemble"]}
{"id": "C23", "title": "Registry restrictions are consistent", "statement": "For every registry, wxy(w,x,y), wy(w,y).eval(x), wx(w,x).eval(y) and xy(x,y).eval(w) are all equal for all w,x,y (inside and outside the domain, including zero), and at the i-th circuit's domain point they equal that circuit's s(x,y) plus the registry key term.", "quantifier": "every set of circuits, every key, all w,x,y", "why_tests_cant": "Interpolation, cached lookup and FFT paths must agree at every point of the field.", "anchors": ["crates/ragu_circuits/src/registry.rs: xy, wy, wx, wxy, w_cached, RegistryAt, key_sxy"]}
{"id": "C24", "title": "Circuit identifiers are stable and collision-free", "statement": "The domain element assigned to circuit index i does not depend on how many circuits the registry holds, distinct indices get distinct elements, and circuit_in_domain(i) holds exactly when i is below the domain size.", "quantifier": "every index and every registry size up to the two-adicity", "why_tests_cant": "All indices and sizes.", "anchors": ["crates/ragu_circuits/src/registry.rs: CircuitIndex::omega_j, circuit_in_domain, OmegaKey, finalize", "crates/ragu_arithmetic/src/fft.rs: bitreverse"]}
{"id": "C25", "title": "Registration order and capacity of the registry builder", "statement": "After any sequence of registrations, finalize lays circuits out as internal circuits, then bonding circuits, then internal steps, then application steps, each in registration order, in a domain of the smallest sufficient power of two, and fails exactly when there are more circuits than coefficients.", "quantifier": "every interleaving of registration calls", "why_tests_cant": "Histories of registration calls are unbounded.", "anchors": ["crates/ragu_circuits/src/registry.rs: RegistryBuilder, finalize"]}
{"id": "C26", "title": "Stage masks: the three evaluators agree", "statement": "For every valid stage mask, sxy(x,y) = sx(x).eval(y) = sy(y).eval(x) for all x,y including zero; construction fails exactly when skip+num exceeds n, and panics exactly when skip is zero.", "quantifier": "every skip, num, rank, x and y", "why_tests_cant": "The closed-form geometric sums differ structurally from the projected polynomial.", "anchors": ["crates/ragu_circuits/src/staging/mask.rs: StageMask::{new,new_final,project,sxy,sx,sy}"]}
{"id": "C27", "title": "Stage masks accept exactly the well-placed stage polynomials", "statement": "A stage polynomial r satisfies <r, mask.sy(y)> = 0 for all y exactly when all of r's wires outside the stage's gates and the blinding gate are zero; every polynomial produced by a stage's rx does; a stage region never overlaps that of its ancestors.", "quantifier": "every polynomial r, every stage layout, every y, every blinding value", "why_tests_cant": "Soundness over adversarial polynomials and all layouts.", "anchors": ["crates/ragu_circuits/src/staging/mask.rs", "crates/ragu_circuits/src/staging/mod.rs: rx_configured, skip_gates, num_gates, mask, final_mask, generator_index_for_b"]}
{"id": "C28", "title": "Stage allocation consumes exactly its reserved gates", "statement": "Adding or skipping a stage inside a multi-stage circuit allocates exactly the stage's reserved gates, starting right after its parent's gates, so the circuit's stage wires sit exactly where the stage polynomial puts them; too many wires is an error.", "quantifier": "every stage hierarchy, every number of values", "why_tests_cant": "Parity of wire counts and pairing of allocations give many cases; must hold for all sizes.", "anchors": ["crates/ragu_circuits/src/staging/builder.rs: configure_stage, add_stage, skip_stage", "crates/ragu_circuits/src/staging/mod.rs: rx_configured"]}
{"id": "C29", "title": "Bonding circuits carry no constant constraint", "statement": "A bonding object's s polynomial is the underlying circuit's with the constant-wire constraint removed, consistently in all three evaluators, so its constant term in Y is zero; circuits that use gates, constants or the constant wire in their witness code are rejected.", "quantifier": "every circuit, all x and y", "why_tests_cant": "All circuits; the rejection must hold for any program point that touches the constant wire.", "anchors": ["crates/ragu_circuits/src/staging/bonding.rs: into_bonding_object, BondingValidator, Stripped"]}
{"id": "C30", "title": "Field element gadget arithmetic", "statement": "For every assignment that satisfies the constraints emitted by the element gadget, mul, square, invert, div_nonzero, add, sub, negate, scale, fold, sum and multiadd outputs carry the corresponding field value; conversely honest inputs always give a satisfying assignment, except inversion of zero and division by zero.", "quantifier": "every satisfying assignment, every input value", "why_tests_cant": "Soundness quantifies over all assignments a malicious prover may choose.", "anchors": ["crates/ragu_primitives/src/element.rs: Element"]}
{"id": "C31", "title": "Boolean gadget soundness", "statement": "In every satisfying assignment an allocated boolean is 0 or 1; not, and, conditional_select, conditional_enforce_equal and multipack carry the logical / selected / little-endian packed value.", "quantifier": "every satisfying assignment, every number of packed bits", "why_tests_cant": "Soundness over all assignments and lengths.", "anchors": ["crates/ragu_primitives/src/boolean.rs: Boolean, multipack"]}
{"id": "C32", "title": "Zero test gadget", "statement": "is_zero (and is_equal) returns 1 exactly when the operand is zero (the operands are equal) in every satisfying assignment, and every operand has a satisfying assignment.", "quantifier": "every satisfying assignment, every operand", "why_tests_cant": "Needs both directions for all field values.", "anchors": ["crates/ragu_primitives/src/boolean.rs: is_zero", "crates/ragu_primitives/src/element.rs: is_zero, is_equal"]}
{"id": "C33", "title": "Root of unity check", "statement": "enforce_root_of_unity(k) is satisfiable exactly when the element is a 2^k-th root of unity; hence it accepts exactly the members of the size-2^k domain.", "quantifier": "every element, every k", "why_tests_cant": "All field elements and all k.", "anchors": ["crates/ragu_primitives/src/element.rs: enforce_root_of_unity", "crates/ragu_arithmetic/src/domain.rs"]}
{"id": "C34", "title": "Curve point gadget arithmetic", "statement": "On every satisfying assignment, an allocated point lies on the curve, and double, negate, add_incomplete and double_and_add_incomplete return the curve group operation's result and stay on the curve under their documented non-degeneracy conditions; the accumulated nonzero product is nonzero exactly when every addition was non-degenerate. The value read from a point is the point of its wires. The endomorphism map for a cube root of unity is a group homomorphism, and applying it three times gives the point back.", "quantifier": "every satisfying assignment, all points on any curve y^2=x^3+b", "why_tests_cant": "All points and all assignments.", "anchors": ["crates/ragu_primitives/src/point.rs: Point"]}
{"id": "C35", "title": "Endoscalar lifting agrees in and out of circuit", "statement": "lift of an endoscalar in-circuit equals the native lift_endoscalar for every bit pattern, and group_scale by an endoscalar computes multiplication by the lifted scalar.", "quantifier": "all 128-bit endoscalars (any even number of bits), every point", "why_tests_cant": "2^128 bit patterns.", "anchors": ["crates/ragu_primitives/src/endoscalar.rs: lift, lift_endoscalar, group_scale"]}
{"id": "C36", "title": "Endoscalar extraction is deterministic in circuit", "statement": "In every satisfying assignment of extract, bit i is 1 exactly when element+i is a square in the field, matching the native extract_endoscalar, unless element+i is zero.", "quantifier": "every element, every satisfying assignment", "why_tests_cant": "All field elements and adversarial bit choices.", "anchors": ["crates/ragu_primitives/src/endoscalar.rs: extract, extract_endoscalar"]}
{"id": "C37", "title": "Sponge behaves as a simple duplex specification", "statement": "For any sequence of absorb and squeeze calls the sponge's outputs equal those of a plain block-buffered duplex construction; squeezing with nothing ever absorbed is an error; save_state followed by resume continues exactly as if the sponge had not been interrupted.", "quantifier": "every interleaving of absorbs and squeezes of any length, any permutation", "why_tests_cant": "Histories are unbounded; buffering boundaries matter.", "anchors": ["crates/ragu_primitives/src/poseidon.rs: Sponge::{new,absorb,squeeze,permute}, save_state, resume"]}
{"id": "C38", "title": "Transcript domain separation", "statement": "Two transcripts created with different tags absorb different, prefix-incomparable sequences of field elements, so tag encodings never collide with each other regardless of later messages; resuming from a saved state yields the same challenges as the uninterrupted transcript.", "quantifier": "every pair of byte-string tags, every continuation", "why_tests_cant": "All byte strings.", "anchors": ["crates/ragu_pcd/src/internal/transcript.rs: Transcript::new, challenge, save_state, resume_from_state"]}
{"id": "C39", "title": "Header encodings", "statement": "An encoded header always has exactly HEADER_SIZE elements: data, then zeros, then the suffix in the last position; encoding fails exactly when the data does not fit; encodings of headers with different suffixes always differ, and for one header type encoding of equal-length data is injective. The uniform and standard encoders agree.", "quantifier": "every header data length and content, every HEADER_SIZE", "why_tests_cant": "All lengths and values.", "anchors": ["crates/ragu_pcd/src/step/encoder.rs", "crates/ragu_pcd/src/step/internal/padded.rs: for_header, PaddedContent, CountingBuffer"]}
{"id": "C40", "title": "Suffix numbering keeps application and internal headers apart", "statement": "For every application index below 2^64-2, distinct suffixes map to distinct field labels, and no application suffix equals an internal suffix. The last two indices are outside the property: the addition overflows, so that a build without overflow checks gives them the labels of internal suffixes.", "quantifier": "every application suffix index of machine size and every internal suffix", "why_tests_cant": "Edge values of machine integers.", "anchors": ["crates/ragu_pcd/src/header.rs: Suffix::{new,get,internal}"]}
{"id": "C41", "title": "Step registration", "statement": "After any sequence of register calls, steps hold consecutive indices in call order, a step declaring any other index is rejected, and no two different header types registered through outputs or inputs share a suffix.", "quantifier": "every history of successful and failing register calls", "why_tests_cant": "Unbounded histories.", "anchors": ["crates/ragu_pcd/src/lib.rs: ApplicationBuilder::register, prevent_duplicate_suffixes, finalize", "crates/ragu_pcd/src/step/mod.rs: assert_index"]}
{"id": "C42", "title": "Step indices map to registry positions", "statement": "The registry position computed for an internal circuit, internal step or application step is exactly where finalize put that circuit; positions are pairwise distinct, and an out-of-range application step is an error.", "quantifier": "every number of application steps and every index", "why_tests_cant": "All counts.", "anchors": ["crates/ragu_pcd/src/step/mod.rs: Index::circuit_index", "crates/ragu_pcd/src/internal/native/mod.rs: circuit_index, total_circuit_counts, register_all", "crates/ragu_pcd/src/internal/nested/mod.rs", "crates/ragu_circuits/src/registry.rs: finalize"]}
{"id": "C43", "title": "Folding revdot claims", "statement": "If a_i . b_i = k_i for all claims then the folded polynomials satisfy revdot(fold(a), fold(b)) = the in-circuit folded value computed from the k_i and the off-diagonal error terms, for every number of claims and all nonzero mu and all nu; the two-layer reduction composes the same way and pads with zeros.", "quantifier": "every list of claims up to capacity, every group size, every mu, nu", "why_tests_cant": "Index arithmetic over all sizes with all challenges.", "anchors": ["crates/ragu_pcd/src/internal/fold_revdot.rs"]}
{"id": "C44", "title": "Folding is sound for wrong claims", "statement": "If some claim a_i . b_i differs from k_i, then for all but boundedly many challenges (mu, nu) the folded claim computed with any fixed error terms is false.", "quantifier": "every list of claims with at least one false claim, every choice of error terms", "why_tests_cant": "Counting over all challenges in a 255-bit field.", "anchors": ["crates/ragu_pcd/src/internal/fold_revdot.rs: fold_products_impl"]}
{"id": "C45", "title": "Claims and public values line up", "statement": "The sequence of revdot claims built for one proof or for two proofs is paired position by position with the matching k(y) sequence: raw claims with c, application circuits with the application instance, hashes_1 with the bridge instance, the other internal circuits with the unified instance, and every bonding/stage claim with zero; no claim is left unpaired.", "quantifier": "every one- and two-proof source, every value of its fields", "why_tests_cant": "Off-by-one alignment errors only show when values differ; must hold for all values.", "anchors": ["crates/ragu_pcd/src/internal/native/claims.rs: build, ky_values, TwoProofKySource", "crates/ragu_pcd/src/internal/nested/claims.rs", "crates/ragu_pcd/src/verify.rs"]}
{"id": "C46", "title": "Verification accepts exactly when all checks pass", "statement": "verify returns true exactly when the circuit identifier is in the registry domain, both header lengths match, every native and nested revdot claim equals its public value, p(u)=v, p's commitment opens and registry_xy(w) matches the registry; a single failing check makes it return false.", "quantifier": "every proof value, every verifier randomness", "why_tests_cant": "Every combination of check outcomes for every proof.", "anchors": ["crates/ragu_pcd/src/verify.rs: verify"]}
{"id": "C47", "title": "Prover's f and in-circuit f(u) agree", "statement": "For all challenges, the quotient polynomial the prover commits to evaluates at u to exactly the value the verification circuit derives from the claimed evaluations, provided u is not one of the query points; the order of queries is the same on both sides.", "quantifier": "every pair of child proofs, all challenges with u outside the query points", "why_tests_cant": "Ordering mismatch among dozens of queries shows only for generic values.", "anchors": ["crates/ragu_pcd/src/fuse/_08_f.rs: compute_native_f", "crates/ragu_pcd/src/internal/native/circuits/compute_v.rs: poly_queries, Denominators"]}
{"id": "C48", "title": "Prover's p and in-circuit v agree", "statement": "The final batched polynomial p evaluated at u equals the value v derived in circuit as a Horner combination of f(u) and the evaluation stage values with effective beta.", "quantifier": "all proofs and challenges", "why_tests_cant": "Same ordering must be used in three different places for all values.", "anchors": ["crates/ragu_pcd/src/fuse/_10_p.rs: compute_p, Accumulator", "crates/ragu_pcd/src/internal/native/stages/eval.rs", "crates/ragu_pcd/src/internal/native/circuits/compute_v.rs"]}
{"id": "C49", "title": "Recomputed a(xz) and b(x) agree with the folded polynomials", "statement": "The values of the folded A and B polynomials at the challenge points that the verification circuit recomputes from the children's claimed evaluations equal the evaluations of the polynomials the prover folded.", "quantifier": "all proofs and challenges", "why_tests_cant": "Two independent code paths traverse the claims; equality needed for all values.", "anchors": ["crates/ragu_pcd/src/internal/native/circuits/compute_v.rs: EvaluationProcessor, compute_axbx", "crates/ragu_pcd/src/fuse/claims.rs", "crates/ragu_pcd/src/fuse/_06_ab.rs"]}
{"id": "C50", "title": "Commitment decomposition tracking", "statement": "A tracked polynomial's commitment, computed from its recorded (key, coefficient) terms, equals the commitment of the polynomial itself after any sequence of folds, scalings and sums, even when terms repeat.", "quantifier": "every sequence of fold operations over any tracked polynomials", "why_tests_cant": "Unbounded histories and duplicated keys.", "anchors": ["crates/ragu_pcd/src/fuse/claims.rs: CommitmentDecomposition, TrackedPoly, Foldable", "crates/ragu_pcd/src/fuse/_06_ab.rs: compute_native_ab"]}
{"id": "C51", "title": "Endoscaling steps partition the points", "statement": "Splitting a list of points into endoscaling steps processes every input exactly once and in order, and the final interstitial equals the full Horner sum of the points by the effective scalar; a step index outside the range is rejected.", "quantifier": "every number of points >= 2, every scalar and points", "why_tests_cant": "All lengths, partial last chunk.", "anchors": ["crates/ragu_pcd/src/internal/endoscalar.rs: num_steps, PointsWitness::new, EndoscalingStep::input_range"]}
{"id": "C52", "title": "Unified instance slots", "statement": "Across any sequence of internal circuits, finishing succeeds only if each slot is covered at most once, and completion succeeds exactly when every slot was covered by exactly one circuit; a slot can be filled at most once; an untouched slot is allocated from the instance without coverage. Slots are allocated and written in the documented order, and the output of a circuit ends with a zero.", "quantifier": "every sequence of slot operations in every sequence of circuits", "why_tests_cant": "Unbounded operation sequences.", "anchors": ["crates/ragu_pcd/src/internal/native/unified.rs: Slot, Coverage, OutputBuilder, assert_complete"]}
{"id": "C53", "title": "Internal circuit instances cannot be application instances", "statement": "An internal circuit's k(Y) has zero linear coefficient while an application circuit's linear coefficient is its header suffix; they are equal for all Y only if the application header's suffix is zero.", "quantifier": "every pair of internal and application instances", "why_tests_cant": "All instance values.", "anchors": ["crates/ragu_pcd/src/internal/suffix.rs: WithSuffix", "crates/ragu_pcd/src/internal/native/unified.rs: finish", "crates/ragu_pcd/src/step/internal/adapter.rs", "crates/ragu_pcd/src/header.rs"]}
{"id": "C54", "title": "Prover and circuit derive identical challenges", "statement": "The Fiat-Shamir challenges the prover derives in one continuous transcript equal those derived by the two hash circuits that split the transcript at a saved sponge state, for all commitments.", "quantifier": "every sequence of commitments, any permutation", "why_tests_cant": "All commitments; depends on buffer phase at the split.", "anchors": ["crates/ragu_pcd/src/fuse/mod.rs: fuse", "crates/ragu_pcd/src/internal/native/circuits/hashes_1.rs", "crates/ragu_pcd/src/internal/native/circuits/hashes_2.rs", "crates/ragu_pcd/src/internal/transcript.rs"]}
{"id": "C55", "title": "Rerandomization preserves the carried data", "statement": "Rerandomizing a PCD yields a step whose output header data and encoding equal the input's, for any header type, with a circuit whose shape does not depend on the header.", "quantifier": "every header type and data", "why_tests_cant": "All header shapes.", "anchors": ["crates/ragu_pcd/src/lib.rs: rerandomize", "crates/ragu_pcd/src/step/internal/rerandomize.rs: witness", "crates/ragu_pcd/src/step/encoder.rs: new_uniform", "crates/ragu_pcd/src/step/internal/padded.rs"]}
{"id": "C56", "title": "Execution drivers agree on values", "statement": "For every circuit and witness, the wire values computed by the simulator, the wired emulator and the trace driver are the same, and the simulator fails exactly when some gate or constraint is violated; the emulator never fails for that reason. The outputs they return are the same, and the counters of the simulator are the numbers of calls made, from which the size of the circuit follows.", "quantifier": "every circuit and witness", "why_tests_cant": "All circuits.", "anchors": ["crates/ragu_primitives/src/simulator.rs: Simulator", "crates/ragu_core/src/drivers/emulator.rs: Emulator", "crates/ragu_circuits/src/trace.rs: Evaluator"]}
{"id": "C57", "title": "Linear expressions accumulate correctly", "statement": "Building a linear expression by any sequence of add/sub/scaled-gain calls gives the same linear form in every driver's accumulator: sum of wire * coefficient * gain at the time of the call.", "quantifier": "every sequence of builder calls", "why_tests_cant": "Unbounded call sequences; gain changes interact with later terms.", "anchors": ["crates/ragu_core/src/drivers/linexp.rs: LinearExpression, DirectSum", "crates/ragu_circuits/src/s/common.rs: WireEvalSum", "crates/ragu_circuits/src/s/sy.rs: TermCollector, TermEnforcer"]}
{"id": "C58", "title": "Fixed-length vectors", "statement": "A fixed-length vector always has its declared length: conversion succeeds exactly when the lengths match and otherwise reports expected and actual lengths; collecting consumes exactly that many items.", "quantifier": "every length and content", "why_tests_cant": "All lengths.", "anchors": ["crates/ragu_primitives/src/vec.rs: FixedVec, CollectFixed"]}
{"id": "C59", "title": "136-bit integer operations", "statement": "The multi-limb endoscalar integer's and, or, shifts and conversions equal the corresponding 136-bit machine word operations for every operand and shift amount, and results stay normalised.", "quantifier": "all operand values and all shift amounts", "why_tests_cant": "2^136 operands.", "anchors": ["crates/ragu_arithmetic/src/uendo.rs: Uendo"]}
{"id": "C60", "title": "Registry digest depends only on the circuit polynomials", "statement": "Two registries with the same sequence of circuit polynomials have the same digest, however the circuits are divided into categories and whatever objects compute the polynomials; the digest is computed from evaluations of the registry polynomial with key one, and unless the hash has a collision two registries with equal digests agree at all the points it was computed from.", "quantifier": "every pair of registries, every field and hash function", "why_tests_cant": "All registries; the digest is what binds proofs to a registry.", "anchors": ["crates/ragu_circuits/src/registry.rs: compute_registry_digest, digest, finalize"]}
{"id": "C61", "title": "Claims against the registry are complete and sound", "statement": "Checking a trace polynomial against the wiring polynomial the registry reports for a circuit index (which carries the registry key) accepts every honest trace, assembled through the registry with any blinding factor, at all challenges; and accepts a trace that violates a gate, a constraint or the public instance at no more than (4n-1)|S| of the |S|^2 challenge pairs from any set S.", "quantifier": "every registry, index, circuit, witness, trace polynomial and challenge", "why_tests_cant": "All circuits and all dishonest traces.", "anchors": ["crates/ragu_circuits/src/registry.rs: circuit_y, assemble_with_alpha", "crates/ragu_pcd/src/internal/claims.rs: circuit_impl", "crates/ragu_pcd/src/verify.rs: verify"]}
{"id": "C62", "title": "The step adapter publishes its headers", "statement": "The circuit of a step publishes the left, right and output headers in that order, 3*HEADER_SIZE elements, and the header values it hands to the prover are the published ones; it succeeds exactly when the step does and all three headers fit, and otherwise reports the first failure, left header first.", "quantifier": "every step, every witness, every HEADER_SIZE", "why_tests_cant": "All steps and header contents.", "anchors": ["crates/ragu_pcd/src/step/internal/adapter.rs: Adapter", "crates/ragu_pcd/src/step/internal/trivial.rs", "crates/ragu_pcd/src/step/internal/rerandomize.rs"]}
{"id": "C63", "title": "Histories of fuses stay consistent", "statement": "Starting from trivial proofs, after any number of seed, fuse and rerandomize operations with any challenges and traces, every commitment of a proof opens to its polynomial, its claimed v is p(u), its registry polynomial is the registry restricted to its x and y, and its c is the product of its a and b; so verification depends only on the data, the shape and the trace claims. A further fuse panics exactly when mu or mu' is zero.", "quantifier": "every history of fuses of any depth and shape, all challenges, all trace polynomials", "why_tests_cant": "Histories are unbounded trees.", "anchors": ["crates/ragu_pcd/src/lib.rs: seed, rerandomize", "crates/ragu_pcd/src/fuse/mod.rs: fuse", "crates/ragu_pcd/src/fuse/_10_p.rs: compute_p", "crates/ragu_pcd/src/proof/mod.rs: trivial_proof", "crates/ragu_pcd/src/verify.rs: verify"]}
{"id": "C64", "title": "The internal circuits of a fuse establish the recursion equations", "statement": "Take any assignments that satisfy the five internal circuits, with the same stages and with public values that agree. Then all the challenges are those of the transcript over the commitments, every commitment (also of both children) is on the curve, the children's circuit identifiers are in the registry's domain, c is the two-layer folding of the values that the children's claims should have at y (unless both children's output headers mark trivial proofs), v is the combination of the quotients and the claimed evaluations, and the headers that the first hash circuit publishes are the children's output headers.", "quantifier": "every satisfying assignment of the five circuits, whatever instances and hints the prover used; every field, Poseidon instance, tag, header size and registry size", "why_tests_cant": "A dishonest prover may use any assignment; the equations span five circuits that share stages.", "anchors": ["crates/ragu_pcd/src/internal/native/circuits/hashes_1.rs", "crates/ragu_pcd/src/internal/native/circuits/hashes_2.rs", "crates/ragu_pcd/src/internal/native/circuits/inner_collapse.rs", "crates/ragu_pcd/src/internal/native/circuits/outer_collapse.rs", "crates/ragu_pcd/src/internal/native/circuits/compute_v.rs"]}
{"id": "C65", "title": "The internal circuits of a fuse accept the honest prover", "statement": "If the stages carry what the prover computes and the public values satisfy the recursion equations, the five internal circuits run in the order of fuse without error or panic, every public value is covered exactly once, the completeness check passes, and all five publish the same public values. The public values of the children's claims and the collapsed values that the prover stages are the ones the circuits want.", "quantifier": "all honest stages and public values with affine commitments and an endoscalar challenge that is not degenerate; every field, Poseidon instance, tag and header size", "why_tests_cant": "All children, challenges and error terms.", "anchors": ["crates/ragu_pcd/src/fuse/_05_outer_error.rs: outer_error_terms", "crates/ragu_pcd/src/fuse/_11_circuits.rs: compute_internal_circuits", "crates/ragu_pcd/src/internal/native/unified.rs: assert_complete"]}
{"id": "C66", "title": "A multi-stage circuit's claim is about its stages' values", "statement": "Add up the final trace polynomial of a registered multi-stage circuit and polynomials of some of its stages, all with any blinding factors. If the rest of the circuit, run on wires that hold the stages' values (zeros for the stages left out), is accepted by the simulator, the sum passes the check against the registry at all challenges, with the simulator's outputs as public inputs. Conversely, if polynomials that pass the masks of the stages and the final mask add up to one that passes the check for more than (4n-1)|S| of the pairs of challenges of a set S, the rest of the circuit is satisfied on the values the stage polynomials hold, with the claimed public inputs. The circuit object does not depend on the witness of the synthesis.", "quantifier": "every chain of stages, every subset of stages used, all values and blinding factors, every rest of the circuit, every registry and index, all challenges; for soundness all polynomials", "why_tests_cant": "All circuits, stages and dishonest polynomials.", "anchors": ["crates/ragu_circuits/src/staging/builder.rs: StageBuilder, configure_stage", "crates/ragu_circuits/src/staging/mod.rs: MultiStage, rx_configured, mask, final_mask", "crates/ragu_pcd/src/internal/claims.rs: sum_polynomials, circuit_impl, bonding_impl"]}
{"id": "C67", "title": "What circuit code enforces is what its accepted claim means", "statement": "Circuit code is gadget calls on a driver. Let a circuit be registered whose calls are those of the code, whatever values the wires hold. If the code runs on the witness without error and outputs inst, the trace of its synthesis plus the stages' polynomials passes the claim with public inputs inst at all challenges. Conversely, if polynomials that pass the masks pass the claim for many challenges, the constraints of the code are satisfiable on the values that the stages' polynomials hold, with exactly the claimed outputs. A synthesis with a different witness gives the same circuit object.", "quantifier": "all gadget code, every witness, every chain of stages and subset used, every registry and index, all challenges; for soundness all polynomials", "why_tests_cant": "All circuits and all dishonest polynomials.", "anchors": ["crates/ragu_circuits/src/staging/builder.rs: StageBuilder", "crates/ragu_circuits/src/registry.rs: circuit_y, assemble_with_alpha", "crates/ragu_primitives/src/simulator.rs: Simulator", "crates/ragu_core/src/drivers.rs: Driver"]}
{"id": "C68", "title": "The internal circuits of a fuse are fixed circuits", "statement": "For each of the five internal circuits there is one circuit description, with the same gates, constraints and outputs for every witness, stage contents and instance: whatever values the wires and the witness hold, the code of the circuit (the stages' guards followed by the circuit) makes the calls of that description. So registering it with no witness and tracing it with the prover's witness concern the same circuit, and the claims about gadget code apply to it.", "quantifier": "every field, Poseidon instance, header size, stage contents of the right lengths and public instance", "why_tests_cant": "All witnesses; a test runs one synthesis.", "anchors": ["crates/ragu_pcd/src/internal/native/circuits/hashes_1.rs", "crates/ragu_pcd/src/internal/native/circuits/hashes_2.rs", "crates/ragu_pcd/src/internal/native/circuits/inner_collapse.rs", "crates/ragu_pcd/src/internal/native/circuits/outer_collapse.rs", "crates/ragu_pcd/src/internal/native/circuits/compute_v.rs", "crates/ragu_circuits/src/staging/builder.rs: StageGuard"]}
{"id": "C69", "title": "The stages of a fuse hold their values where the circuits read them", "statement": "The preamble, error, query and eval stages hold the children's headers, circuit identifiers, public values, error terms, collapsed values, sponge state and evaluations, each in the documented order and as many as the stage declares; and the gadget a circuit gets from a stage has exactly the stage's wires at the positions of those values, whatever other stages were configured or skipped before it.", "quantifier": "all proofs, headers, error terms and evaluations; every header size, sponge width and wire assignment", "why_tests_cant": "All contents; a position that is off by one shifts everything behind it.", "anchors": ["crates/ragu_pcd/src/internal/native/stages/preamble.rs", "crates/ragu_pcd/src/internal/native/stages/outer_error.rs", "crates/ragu_pcd/src/internal/native/stages/inner_error.rs", "crates/ragu_pcd/src/internal/native/stages/query.rs", "crates/ragu_pcd/src/internal/native/stages/eval.rs", "crates/ragu_circuits/src/staging/builder.rs: StageGuard, unenforced, enforced"]}
{"id": "C70", "title": "An accepted proof carries stages that satisfy the recursion equations", "statement": "Take an application built by registering steps and finalizing, any proof object, any header and data, and let the verifier draw y and z from a set A of field elements (the other challenges may depend on them in any way). If verification accepts for more than (4n+1)|A| of the |A|^2 pairs, then the proof's stage polynomials hold gadgets with which the public values of the proof satisfy the recursion equations of a fuse (challenges from the transcript, commitments on the curve, children's circuit identifiers in the domain, c, v), the children's output headers are the input headers of the application circuit, and the application polynomial is a satisfying assignment of the circuit the proof names, with the two input headers and the encoding of the carried data as output. What a fuse defers (the product c, the opening of the batched polynomial and, with enough different w, the registry polynomial) holds of the proof itself.", "quantifier": "every application, every proof object of the right types, every header, data and way of drawing challenges", "why_tests_cant": "All dishonest proofs; acceptance is a statement about polynomials, the equations are about gadgets.", "anchors": ["crates/ragu_pcd/src/verify.rs: verify", "crates/ragu_pcd/src/lib.rs: ApplicationBuilder::finalize", "crates/ragu_pcd/src/internal/native/claims.rs: build", "crates/ragu_pcd/src/internal/native/circuits/"]}
{"id": "C71", "title": "Only a registered step can be the source of an accepted proof", "statement": "Under the same assumption with (8n-2)|A| in place of (4n+1)|A|, the circuit that an accepted proof names is that of a registered step (or one of the two internal steps): it is no internal circuit, no stage mask and no unused place in the registry's domain. The step's circuit is satisfied with the two input headers and the encoding of the carried data. verify itself only checks that the identifier is in the domain.", "quantifier": "every application, every proof object of the right types, every header whose suffix is not zero in the field, every data and way of drawing challenges", "why_tests_cant": "All dishonest proofs and identifiers.", "anchors": ["crates/ragu_pcd/src/verify.rs: verify", "crates/ragu_pcd/src/step/mod.rs: Index", "crates/ragu_pcd/src/header.rs: Suffix", "crates/ragu_circuits/src/registry.rs: Registry"]}
{"id": "C72", "title": "What gadgets cost", "statement": "Every gadget takes a fixed number of gates, single allocations and constraints, whatever values its wires carry: for instance 1/0/2 for a multiplication, 2/0/4 for a zero test, 3/0/5 for a point, 7(1+n/2) gates for scaling a point by an n-bit endoscalar, 6k+10 gates for t(x,z) at rank 2^k, n^2-1 multiplications for folding a matrix of claims, three gates per S-box for the Poseidon permutation.", "quantifier": "all wire values, all list lengths, numbers of bits, ranks and Poseidon instances of the right shape", "why_tests_cant": "Tests count one synthesis at one size.", "anchors": ["crates/ragu_primitives/src/element.rs", "crates/ragu_primitives/src/boolean.rs", "crates/ragu_primitives/src/point.rs", "crates/ragu_primitives/src/endoscalar.rs", "crates/ragu_primitives/src/poseidon.rs", "crates/ragu_circuits/src/polynomials/txz.rs", "crates/ragu_pcd/src/internal/fold_revdot.rs"]}
{"id": "C73", "title": "The internal circuits fit the rank", "statement": "The five internal circuits of a fuse have gate and constraint counts that depend only on the header size, the logarithm of the registry's size, the rank, the number of endoscalar bits and the shape of the Poseidon instance. With the parameters in use they compile at the production rank exactly if 13 HEADER_SIZE + 2 log2(circuits) <= 874: headers of up to 65 elements work with every number of steps that the registry takes, headers of 66 elements only with up to 241 steps, longer ones never.", "quantifier": "every field and all constants of the parameters, every header size, registry size, rank and Poseidon instance, every circuit that makes the calls of the code", "why_tests_cant": "The recorded counts of the tests are for one header size and one number of steps.", "anchors": ["crates/ragu_pcd/src/internal/tests.rs: test_internal_circuit_constraint_counts", "crates/ragu_pcd/src/internal/native/circuits/", "crates/ragu_pcd/src/lib.rs: ApplicationBuilder::finalize", "crates/ragu_circuits/src/registry.rs: constraint_counts"]}
{"id": "C74", "title": "Proofs made by honest programs are accepted", "statement": "Take an application built by registering steps and finalizing, and any program that makes proofs with seed, fuse and rerandomize, in any number and order, with steps that synthesize without error, satisfy their own constraints and encode the data of their inputs. Then verify accepts every proof that the program makes, with the data it carries, whatever challenges the verifier draws. The steps of seed and rerandomize are such steps, for every header and all data that fit.", "quantifier": "every application, every history of operations, all steps, headers, data, blinding factors and verifier challenges; the challenge u of each fuse is none of the points at which it queried polynomials", "why_tests_cant": "Histories are unbounded trees, and acceptance depends on random blinding, on Fiat-Shamir challenges and on the verifier's randomness.", "anchors": ["crates/ragu_pcd/src/lib.rs: seed, fuse, rerandomize, verify", "crates/ragu_pcd/src/fuse/mod.rs: fuse", "crates/ragu_pcd/src/fuse/_01_application.rs", "crates/ragu_pcd/src/fuse/_11_circuits.rs", "crates/ragu_pcd/src/step/internal/adapter.rs: Adapter"]}
{"id": "C75", "title": "The Pasta cycle is what the proof system assumes", "statement": "The two fields of the Pasta cycle have prime order, each of the two curves has as many points as the other curve's field has elements, on each curve (x, y) -> (ZETA x, y) is multiplication by the other field's ZETA, 5 is not a square, the FFT constants are a primitive 2^32-th root of unity with its inverse and the inverse of 2, and to_repr is the little-endian representation. So an application over this cycle, at rank 11 or less, meets the assumptions on fields and curves under which the claims about accepted and honest proofs are proved.", "quantifier": "all field elements and all points of both curves; every application, header size and rank up to 11", "why_tests_cant": "The claims are about groups of about 2^254 points and all of their elements.", "anchors": ["crates/ragu_pasta/src/lib.rs: Pasta", "crates/ragu_primitives/src/endoscalar.rs", "crates/ragu_arithmetic/src/domain.rs: Domain", "crates/ragu_arithmetic/src/lib.rs: Cycle"]}
{"id": "C76", "title": "Registry lookup keys do not collide", "statement": "In both Pasta fields, the key under which the registry looks up a point of its domain (the low 64 bits of five times the element) is different for any two roots of unity of order 2^k, for every k that a registry at a supported rank can have (k <= 13). The code states this in a comment.", "quantifier": "all pairs of 2^k-th roots of unity, k up to 13, both fields", "why_tests_cant": "Tests use a handful of circuits; a collision would make the registry evaluate the wrong circuit.", "anchors": ["crates/ragu_circuits/src/registry.rs: OmegaKey, RegistryBuilder::finalize", "crates/ragu_arithmetic/src/util.rs: low_u64"]}
{"id": "C77", "title": "The Poseidon permutation is a permutation", "statement": "With the constants in the repository, for both fields, the Poseidon permutation maps the states of five field elements one to one onto themselves; the numbers of round constants, rows and columns are those that the rounds need, and the permutation circuit runs on every state and computes exactly that function.", "quantifier": "all states, both fields", "why_tests_cant": "The number of states is about 2^1270. A wrong digit in the matrix could make it singular and would change no shape.", "anchors": ["crates/ragu_pasta/src/poseidon_fp.rs", "crates/ragu_pasta/src/poseidon_fq.rs", "crates/ragu_primitives/src/poseidon.rs: Permutation", "crates/ragu_arithmetic/src/lib.rs: PoseidonPermutation"]}
{"id": "C78", "title": "Field literals denote the number written", "statement": "repr256! turns every literal below 2^256 into four 64-bit limbs, least significant first, with that value, and rejects every larger one. All Poseidon constants are written as numbers below the modulus, so the field element of fp!(n) or fq!(n) is n.", "quantifier": "all integer literals; all constants in the repository", "why_tests_cant": "Tests convert four literals.", "anchors": ["crates/ragu_macros/src/proc/repr.rs: evaluate", "crates/ragu_pasta/src/macros.rs: fp, fq", "crates/ragu_pasta/src/poseidon_fp.rs", "crates/ragu_pasta/src/poseidon_fq.rs"]}
{"id": "C79", "title": "Baked parameters are the generated parameters", "statement": "Generation hashes a different message for each of the 2^13 generators of each curve and for the blinding generator, which is enough for polynomials of the production rank. If no hash is the identity, the build script writes a file from which Pasta::baked reads exactly the generated parameters, using up all of the file; if some hash is the identity, the build fails.", "quantifier": "every hash-to-curve function and all points it returns", "why_tests_cant": "The test compares one set of parameters, after the fact.", "anchors": ["crates/ragu_pasta/pasta_common.rs: params_for_curve, PastaParams::generate", "crates/ragu_pasta/build.rs", "crates/ragu_pasta/src/lib.rs: baked"]}
{"id": "C80", "title": "The library's own steps and the endoscaling circuits are fixed circuits", "statement": "The rerandomization step is the same circuit for every header type and all data that encodes (so it can be registered once), the trivial step has a circuit, and each of the nine endoscaling steps is one circuit for all endoscalars and points. Rerandomization takes 1 + ceil(HEADER_SIZE/2) gates and 3 HEADER_SIZE + 1 constraints, the trivial step 1 gate and 3 HEADER_SIZE + 1 constraints, and an endoscaling step 1948 gates and 3677 constraints.", "quantifier": "all header types, all data, all header sizes; all endoscalars and points", "why_tests_cant": "Tests register the steps with one header type and one size; whether the circuit depends on the data is a statement about all data.", "anchors": ["crates/ragu_pcd/src/step/internal/rerandomize.rs: Rerandomize", "crates/ragu_pcd/src/step/internal/trivial.rs: Trivial", "crates/ragu_pcd/src/internal/endoscalar.rs: EndoscalingStep", "crates/ragu_pcd/src/internal/native/mod.rs: register_all", "crates/ragu_pcd/src/lib.rs: finalize"]}
{"id": "C81", "title": "Which applications can be built", "statement": "At the production rank (2^11 gates) and with the library's own circuits, an application whose steps have the indices 0, 1, 2, ... in order, consistent headers and circuits that compile can be registered, and finalize succeeds exactly if 13 HEADER_SIZE + 2 log2(number of circuits) <= 874 and there are at most 8177 steps: so every HEADER_SIZE up to 65 works with any number of steps up to 8177. Over the Pasta cycle every such application has all that is assumed where accepted proofs are analysed, and every proof made with it by seed and fuse is accepted.", "quantifier": "all lists of steps, all header sizes, all proofs made by honest programs", "why_tests_cant": "The number of applications is unbounded; tests build a few with one header size.", "anchors": ["crates/ragu_pcd/src/lib.rs: ApplicationBuilder::register, ApplicationBuilder::finalize", "crates/ragu_pcd/src/internal/native/mod.rs: register_all", "crates/ragu_pcd/src/internal/nested/mod.rs: register_all", "crates/ragu_circuits/src/registry.rs: RegistryBuilder::finalize"]}
{"id": "C82", "title": "What calls of seed, fuse and rerandomize return", "statement": "Take a program that calls seed, fuse and rerandomize, in any number and order, with correct steps, on proofs it got from earlier calls. Every proof that a call returns is accepted, with the data returned beside it, whatever challenges the verifier draws (if the call's challenge u is none of the points it queried), and rerandomize returns the data it was given. On such inputs every call has an outcome, and it stops with an error or a panic only if a commitment is the identity, one of the challenges mu, mu', x, z is zero, the incremental combination of commitments adds a point to itself or to its opposite, or u is a queried point. No other operation in these calls fails. Over the Pasta cycle, at the production rank and with the library's circuits, all assumptions on the application hold.", "quantifier": "every application, every history of calls, all correct steps, headers, data, random values and outcomes of the calls; the cell that caches the seeded trivial proof is full or empty", "why_tests_cant": "Histories are unbounded, a call goes through more than a hundred fallible operations, and outcomes depend on random values.", "anchors": ["crates/ragu_pcd/src/lib.rs: seed, fuse, rerandomize, seeded_trivial", "crates/ragu_pcd/src/fuse/mod.rs: fuse", "crates/ragu_pcd/src/fuse/", "crates/ragu_pcd/src/proof/mod.rs: trivial_proof"]}
{"id": "C83", "title": "What an accepted proof establishes over the scalar field, and what it leaves open", "statement": "If a verifier that draws its two challenges over the scalar field from a set A accepts a proof for more than (4n+7)|A| of the |A|^2 pairs, n being the number of gates, then each of the proof's polynomials of a stage over the scalar field has wires in its stage only, and the values in the endoscalar stage and the points stage satisfy all nine endoscaling steps: if the former are the bits of v and the latter hold points of the host curve, then the last intermediate point is the combination of all 37 points with powers of the effective scalar of v, with no degenerate addition on the way. The verifier looks at no commitment to a native polynomial but that of the batched one, and it does not tie the scalar field's polynomials to the rest of a proof: those of one accepted proof can be replaced by those of any other.", "quantifier": "All applications, proofs (honest or not), headers, data, sets of challenges and dependencies of the other challenges; all pairs of accepted proofs.", "why_tests_cant": "It is a statement about arbitrary provers and the fraction of challenges that let a false claim pass; a test runs honest provers or single tampered proofs.", "anchors": ["crates/ragu_pcd/src/verify.rs: verify", "crates/ragu_pcd/src/internal/nested/claims.rs: build", "crates/ragu_pcd/src/internal/endoscalar.rs: EndoscalingStep", "crates/ragu_pcd/src/proof/mod.rs: nested_rx"]}
{"id": "C84", "title": "Gadgets can be mapped, compared, counted, cloned and demoted without a wire getting lost", "statement": "Mapping a gadget to another driver converts each of its wires exactly once, in the order of the fields, and passes the state of the map on; the first failing conversion ends it with its error. The result has the same arrangement and the converted wires, and the witness values if the destination has witnesses. So num_wires is the number of wires for every gadget of a kind, mapping twice is mapping with the composition, and cloning gives the gadget back. enforce_equal on two gadgets of one kind holds exactly if all wires are equal, and takes one constraint for each wire. Demoting keeps the wires and drops the witness, and promoting a demoted boolean restores it with the witness given. The derive macros generate just these operations for a struct, field by field, refuse a field with two kinds of annotation, write all fields but the skipped ones, and demand consistency of all gadget fields and of nothing else.", "quantifier": "all arrangements of fields, all wires and witness values, all wire maps with state and with failures, all annotations", "why_tests_cant": "Tests map a few gadgets with one or two maps; the arrangements and the maps are unbounded.", "anchors": ["crates/ragu_core/src/gadgets.rs: Gadget, GadgetKind", "crates/ragu_core/src/gadgets/foreign.rs", "crates/ragu_core/src/convert.rs: WireMap", "crates/ragu_primitives/src/promotion.rs: Demoted, Promotion", "crates/ragu_macros/src/derive/gadget.rs", "crates/ragu_macros/src/derive/gadgetwrite.rs", "crates/ragu_macros/src/derive/consistent.rs"]}
{"id": "C85", "title": "What the records and fingerprints of routine calls say", "statement": "Measuring a circuit returns the root's record and one record for each routine call, nested ones included, in the order in which calls start; the gate and constraint counts of the records add up to the circuit's. A call's record depends on the two gadget kinds, the number of input wires and the routine's own code, not on the caller, on earlier calls or on the wires passed in, nor on what nested calls do. Routines with the same gates and calls in the same order and with constraints of the same values have the same fingerprint. If the values of their constraints differ for some values of the wires, the fingerprints (with their 64 bits) agree for at most (2 floor(p/2^64)+1) n / p of the choices of the evaluation points, n being the number of places and constraints plus one. For routines without nested calls this needs no assumption about their gates. With nested calls it does: there are routines that differ in whether an own wire or a call's output is constrained and that have the same fingerprint for all points. Which wires a routine returns is not recorded.", "quantifier": "all circuits with any nesting of routine calls, all choices of evaluation points, all prime fields", "why_tests_cant": "Tests compare some forty routines at one choice of points; that all different routines are told apart at most points is a statement about all pairs and all points.", "anchors": ["crates/ragu_circuits/src/metrics.rs: Counter, RoutineFingerprint, SegmentRecord, eval_raw", "crates/ragu_core/src/routines.rs: Routine", "crates/ragu_arithmetic/src/util.rs: low_u64"]}
{"id": "C86", "title": "Computing a trace with threads, failing closures and predicted outputs", "statement": "Computing the trace of witness code always ends, whatever the schedule of the threads. Whether it succeeds, with which result and which trace, does not depend on the schedule, nor on whether threads are compiled in. It fails only with an error (or panic) with which the code or a routine that it calls ends, so its own assertions never fire; if several routines fail, the schedule decides which error is reported. If predictions are right, wherever a routine predicts its output, then result and trace are those of running all routines in place without any prediction; they exist exactly if executing everything in place succeeds, and then the emulator that skips predicted routines returns the same. The routines of the library have right predictions. A wrong prediction is not noticed, and the emulator misses failures of value closures. Code of gadgets, which calls no routine, ends in the trace evaluator as in the emulator, with the same value, error or panic, and as in the simulator unless that finds a constraint that does not hold.", "quantifier": "all witness code with any nesting of routines, value closures and checks that may fail or panic, all predictions, all schedules of the threads", "why_tests_cant": "Schedules cannot be enumerated by tests, and code with failing closures or wrong predictions is unbounded.", "anchors": ["crates/ragu_circuits/src/trace.rs: Evaluator, eval", "crates/ragu_core/src/drivers/emulator.rs: Emulator", "crates/ragu_core/src/routines.rs: Prediction", "crates/ragu_core/src/drivers.rs: Driver::routine", "crates/ragu_circuits/src/polynomials/txz.rs: Evaluate", "crates/ragu_primitives/src/poseidon.rs: Permutation"]}
{"id": "C87", "title": "A fuse says of its children what a verifier would", "statement": "Let a prover fuse two proofs of its choice, with headers of its choice that do not both mark a trivial proof, and answer the challenges of the fuse in any way that depends on the challenges drawn so far. Call a child sound if its traces satisfy the internal circuits and the circuit of the step it names, with the header as output (and it does name a step unless the header ends with zero), and what it left open holds: its folded polynomials have the product c, its batched polynomial has the value v at u, and its registry polynomial is that of the registry. If a child is not sound, then what the circuits of the fuse establish and what they leave open hold together for at most (40n+151)|A|^9|B| + 36|A|^10 of the |A|^10|B| draws of the challenges, n being the number of gates (ten challenges from A, and the batching multiplier from B). A proof that a verifier accepts for more than 8n|V|^2 of the |V|^3 triples of its own challenges is sound, and comes from such a fuse only if all that holds. So, drawing both, a proof that a fuse of an unsound child leads to is accepted for at most the sum of the two fractions. An honest fuse of proofs made before has sound children and meets all of it.", "quantifier": "all applications, children (honest or not), headers, provers and sets of challenges; all data and dependencies of the verifier's other challenges", "why_tests_cant": "It is about all cheating provers and the fraction of challenges that let a bad child pass; tests run honest provers.", "anchors": ["crates/ragu_pcd/src/fuse/mod.rs: fuse", "crates/ragu_pcd/src/internal/native/circuits/compute_v.rs", "crates/ragu_pcd/src/internal/native/circuits/outer_collapse.rs", "crates/ragu_pcd/src/internal/native/circuits/inner_collapse.rs", "crates/ragu_pcd/src/internal/native/claims.rs", "crates/ragu_pcd/src/internal/fold_revdot.rs", "crates/ragu_pcd/src/verify.rs: verify"]}
{"id": "C88", "title": "Every step in the history of an accepted proof holds", "statement": "Call the header of some data derived if it ends with the suffix of the trivial header, or if some step of the application has gadgets for its left, right and output header such that all constraints of its code hold, the output gadget writes that header, and what the left and right gadgets write are derived headers. Let a prover make k fuses one after the other, each with children it chose among what its earlier fuses made (or with the trivial header), and with messages that depend in any way on the challenges drawn so far. Then in at most k((40n+151)|A|^9|B| + 36|A|^10)(|A|^10|B|)^(k-1) of the (|A|^10|B|)^k runs does a proof come out that is sound for a header that is not derived. Counting the verifier's challenges too, it accepts a proof for data without a derived header at most for that fraction plus 8n/|V|. So for an application whose steps square and multiply, over the Pasta cycle, whatever a prover does in up to 2^80 fuses, for fewer than a quarter of the runs is there a sound proof of an element that is not a square. Honestly made proofs have derived headers, and come out of such runs.", "quantifier": "all applications and step programs, all numbers of fuses and shapes of their tree, all provers, all data, all sets of challenges", "why_tests_cant": "It quantifies over all cheating provers, trees of any depth and draws of all challenges; tests run honest provers on trees of a few nodes.", "anchors": ["crates/ragu_pcd/src/lib.rs: seed, fuse, verify", "crates/ragu_pcd/src/fuse/mod.rs: fuse", "crates/ragu_pcd/src/step/mod.rs: Step", "crates/ragu_pcd/src/step/encoder.rs: Encoder", "crates/ragu_pcd/src/step/internal/adapter.rs: Adapter", "crates/ragu_pcd/src/step/internal/rerandomize.rs", "crates/ragu_pcd/src/internal/native/circuits/"]}
{"id": "C89", "title": "The blinding factor keeps commitments off the identity and hides what is committed to", "statement": "For every circuit trace and every stage's values, the commitment is a point that does not depend on the blinding factor plus the factor times one generator. So no two factors give the same commitment, at most one gives the identity (which the transcript and the circuits cannot take), and for a stage of zeros that one is zero. Over a curve with as many points as the field has elements, as in the Pasta cycle, every point is the commitment for exactly one factor; and every list of points is the list of commitments for exactly one list of factors, if commitments are published one after the other and what is committed to depends in any way on those before. So with random factors the commitments say nothing about the witnesses.", "quantifier": "all circuits, traces, stages and values, all blinding factors, all sequences of commitments with any dependence on earlier ones, all generators of which the one for the factor is not the identity", "why_tests_cant": "It is about the distribution of the commitments over all blinding factors, for all witnesses.", "anchors": ["crates/ragu_circuits/src/trace.rs: assemble", "crates/ragu_circuits/src/staging/mod.rs: StageExt::rx_configured", "crates/ragu_circuits/src/polynomials/sparse/mod.rs: commit", "crates/ragu_circuits/src/registry.rs: assemble_with_alpha"]}
{"id": "C90", "title": "Commitments bind unless a relation between the generators is found", "statement": "Two polynomials with the same commitment are equal, or their difference is a nontrivial relation between the generators. From accepted proofs whose batched commitments combine the same 37 points with 37 different multipliers, openings of all of the points can be computed, as combinations of the batched polynomials with coefficients that depend on the multipliers alone. Let a prover fuse as in the claims above, but let only the commitment of the batched polynomial be known to be the combination, and let the children's polynomials and the prover's messages open the commitments that are combined. If a verifier accepts such a proof, then its batched polynomial is the combination, or the difference of the two is a relation between the generators. So as long as no such relation comes up, the bounds on fuses of unsound children, and on proofs of data without a history over any number of fuses, hold for this prover too. An honest prover is of this kind, and never comes upon a relation. The commitment of the batched polynomial is the combination if the proof is accepted for enough of the verifier's challenges over the scalar field and if the two stages of the endoscaling hold the bits extracted from pre_beta, the coordinates of the combined commitments and those of the batched one; this is so in what seed and fuse make.", "quantifier": "all generators, polynomials, points and multipliers; all applications, provers, numbers of fuses, data and challenges", "why_tests_cant": "Binding is about all openings a prover may find; tests see only the honest one.", "anchors": ["crates/ragu_pcd/src/fuse/_10_p.rs", "crates/ragu_pcd/src/internal/endoscalar.rs", "crates/ragu_pcd/src/verify.rs: verify", "crates/ragu_circuits/src/polynomials/sparse/mod.rs: commit", "crates/ragu_pcd/src/lib.rs: fuse, verify"]}
{"id": "C91", "title": "Choosing among many transcripts does not help a prover much", "statement": "The challenges of a fuse come from a transcript that the prover computes by itself, so it may try many transcripts and keep what suits it. Let each challenge be the answer to a question, and a question be a transcript up to that point: the children, the messages sent so far and the challenges drawn so far. Let a prover ask Q questions one after the other, about as many fuses as it likes, in any order and depending in any way on the earlier answers, with two elements of A and one of B as the answer to each. Then for at most Q((16n+55)|A||B| + 36|A|^2)(|A|^2|B|)^(Q-1) of the (|A|^2|B|)^Q answers is there any fuse whose challenges are all answers to its transcript, whose equations and open claims hold, and one of whose children is not sound although not both headers mark a trivial proof. For at most as many is there a proof that is made by such fuses down to trivial headers and is sound for a header that is not derived. Counting the verifier's challenges too, it accepts a proof for data without a derived header at most for that fraction plus 8n/|V|. For the application of squares over the Pasta cycle and up to 2^80 questions this is less than a quarter. Conversely, with eight questions for each fuse a prover has all that it has when the challenges are drawn by someone else.", "quantifier": "all applications and step programs, all numbers of questions, all provers, all data, all sets of challenges", "why_tests_cant": "It is about all cheating provers that search through transcripts, and all answers to their questions; tests run one honest transcript.", "anchors": ["crates/ragu_pcd/src/internal/transcript.rs: Transcript", "crates/ragu_pcd/src/fuse/mod.rs: fuse", "crates/ragu_pcd/src/lib.rs: seed, fuse, verify", "crates/ragu_pcd/src/internal/native/circuits/", "crates/ragu_pcd/src/verify.rs: verify"]}
{"id": "C92", "title": "Who makes an accepted proof has the witnesses of all steps behind it", "statement": "Let a prover make proofs as in the claim before, asking for the challenges of transcripts. Then for at most the same small fraction of the answers is there a proof that is sound for a header (or, counting the verifier's challenges, that is accepted for some data) although the witnesses of its history cannot be read off the proof and the proofs that occur as children in the prover's questions. They can be read off if the header marks a trivial proof, or if the wires in the proof's application trace satisfy the circuit of a step of the application, with the header as the step's output and with input headers whose witnesses can be read off the two children; or if the proof rerandomizes one for which that is so. What can be read off shows that the header is derived. For proofs made by seed and fuse the witnesses can be read off the proofs that were made.", "quantifier": "all applications and step programs, all numbers of questions, all provers, all data, all sets of challenges, trees of any depth", "why_tests_cant": "That a statement is true is not enough where it always is, as for preimages of hashes; it is about what every successful prover must hold.", "anchors": ["crates/ragu_pcd/src/lib.rs: seed, fuse, verify", "crates/ragu_pcd/src/fuse/_01_application.rs", "crates/ragu_pcd/src/proof/components.rs: Application", "crates/ragu_pcd/src/step/internal/rerandomize.rs", "crates/ragu_circuits/src/trace.rs: Trace"]}
{"id": "C93", "title": "What proofs of the example application mean", "statement": "The example application, which the tests run, has a step that makes a leaf from an element and publishes its hash, and a step that makes a node from two leaves and publishes the hash of their hashes; the hash of a message is the first output of the Poseidon duplex construction that absorbed it. The constraints of the first step can be satisfied exactly if both inputs are trivial and the output is the header of the hash of some element; those of the second exactly if both inputs are headers of leaves and the output is the header of a node with the hash of the two. On every element the steps succeed and return these hashes. Whatever a prover does, asking for the challenges of transcripts, for at most the small fraction of the claims before is there a sound (or, counting the verifier's challenges, accepted) proof of a node without two proofs among the children in its questions whose application traces contain elements that hash, level by level, to what the node publishes; and the same for leaves. Over the Pasta cycle, at the rank and header size of the tests, the application can be built. If the calls of the test return, the data they return are the hashes and all three proofs are accepted, for all elements and all challenges of the verifier; and the calls have an outcome.", "quantifier": "all elements, all Poseidon parameters of the right shape, all provers, numbers of questions, sets of challenges, data, and choices of the challenges of the verifier", "why_tests_cant": "The test runs one honest tree on one element; that every accepted proof of a node has leaves is about all provers.", "anchors": ["crates/ragu_testing/src/pcd/nontrivial.rs: WitnessLeaf, Hash2, LeafNode, InternalNode", "crates/ragu_pcd/tests/nontrivial.rs: various_merging_operations", "crates/ragu_primitives/src/poseidon.rs: Sponge", "crates/ragu_pcd/src/lib.rs: seed, fuse, verify"]}
{"id": "C94", "title": "What the example circuits of the tests prove", "statement": "The simple example circuit takes a and b and publishes c = a + b and d = a - b: its constraints hold with public values c and d exactly if a^5 = b^2 and c, d are that sum and difference; on a witness with a^5 = b^2 it runs and returns them, and otherwise it returns an error. The squaring example holds exactly if the public value is the witness squared the given number of times, and it runs on every witness. The first has 6 gates and 12 constraints, the second two gates more than squarings and two constraints more than twice as many, for every number of squarings. Whatever polynomial passes the check of either circuit at more than a small number of points has a witness of the relation among its coefficients; and the honest trace of every witness of the relation passes the check at all points.", "quantifier": "all fields, elements, numbers of squarings, registries with the circuit, polynomials and points of the check", "why_tests_cant": "The tests check one witness at random points; that no other public values pass is about all polynomials.", "anchors": ["crates/ragu_testing/src/circuits/mod.rs: MySimpleCircuit, SquareCircuit", "crates/ragu_circuits/src/lib.rs: Circuit", "crates/ragu_circuits/src/trace.rs: Trace::assemble", "crates/ragu_circuits/src/registry.rs: RegistryBuilder"]}
{"id": "C95", "title": "Handles of the test registry point to what was registered", "statement": "After any history of successful registrations with the test registry builder, in any order, the handle of a circuit leads to that circuit in the registry that is built, and assembling, restricting and evaluating with it concern that circuit. The handle of a bonding object leads to that object if no circuit is registered after it, as the documentation demands; it is short by exactly the number of circuits registered after it, so the demand cannot be dropped: a bonding object and a circuit registered in this order get the same handle. If all circuits are registered first, the handles are 0, 1, 2 and so on. After a registration that failed, every further registration and building the registry panic.", "quantifier": "all fields, all histories of registrations, all circuits and bonding objects, all registries built from them", "why_tests_cant": "It is about all orders and numbers of registrations; tests register a few.", "anchors": ["crates/ragu_testing/src/registry.rs: TestRegistryBuilder, Handle, TestRegistry", "crates/ragu_circuits/src/registry.rs: RegistryBuilder"]}
{"id": "C96", "title": "A stage mask is a circuit", "statement": "Take the circuit that creates all gates of the rank and, for every gate that is neither the first nor one of the gates of a stage, forces its four wires to zero. For every stage that fits the rank the circuit pipeline accepts it; the numbers of gates and constraints are those the mask of the stage reports; and its wiring polynomial, evaluated at both points or restricted to either, is that of the mask's closed form and the monomial of the constraint on the constant wire. The constraints of the circuit, without that one, hold exactly if all wires of all gates outside the stage are zero.", "quantifier": "all fields, ranks, stages that fit the rank, points and assignments of the wires", "why_tests_cant": "The tests compare the closed forms with the circuit for a few stages at random points.", "anchors": ["crates/ragu_circuits/src/staging/mask.rs: StageMask, impl CircuitObject, impl RawCircuit (tests)", "crates/ragu_circuits/src/raw.rs: RawCircuit", "crates/ragu_circuits/src/lib.rs: into_raw_circuit_object"]}
{"id": "C97", "title": "Proofs do not grow, and commit to what they store", "statement": "However many calls of seed, fuse and rerandomize led to a proof, and whatever the steps and data were, it stores 19 polynomials over each field with at most four times the rank's gates of coefficients each, the headers of its two children with exactly the application's header size, and a fixed number of further field elements: at most 152 n + 2 N + 13 in all. Each commitment that it stores for a polynomial over the circuit field is the commitment of the polynomial stored with it, and each bridge commits to its polynomial.", "quantifier": "all applications in order, all histories of calls that return with usable challenges, all steps and data", "why_tests_cant": "The claim is about histories of any length; a test makes a few proofs.", "anchors": ["crates/ragu_pcd/src/proof/mod.rs: Proof", "crates/ragu_pcd/src/proof/components.rs", "crates/ragu_pcd/src/lib.rs: seed, fuse, rerandomize", "crates/ragu_pcd/src/fuse/mod.rs: fuse"]}
{"id": "C98", "title": "The bridges of a proof hold its commitments", "statement": "Whenever fuse returns a proof, its eight bridge polynomials hold, one point per gate in gates 1 to 24 and in a fixed order, the affine coordinates of the commitments over the circuit field made before the transcript absorbs the bridge, the first of them also those of the six circuits of each child, and apart from the blinding factor nothing else; none of them is the identity. So bridges with equal polynomials hold equal commitments. The other two stages hold the bits of the endoscalar of the last challenge, and the 37 accumulated points followed by the nine partial sums of the endoscaling, the last of which is the commitment of the batched polynomial.", "quantifier": "all applications, steps, children, data and random choices for which fuse returns a proof", "why_tests_cant": "The tests count the wires of the stages and do not look at the values; a swapped or repeated commitment would pass them.", "anchors": ["crates/ragu_pcd/src/internal/nested/stages/mod.rs: define_bridge_stage", "crates/ragu_pcd/src/internal/nested/stages/preamble.rs: ChildWitness::from_proof, Stage", "crates/ragu_pcd/src/internal/endoscalar.rs: EndoscalarStage, PointsStage, PointsWitness", "crates/ragu_pcd/src/fuse/_02_preamble.rs to _10_p.rs"]}
{"id": "C99", "title": "Values that may not exist behave like options, and do not change a circuit", "statement": "For a driver with witnesses the operations on values that may exist are those of Option on Some: a closure is called once, and its value, error, panic and effects are those of the operation; a cast splits an array or tuple into its parts in order. For a driver without them they are those on None: no closure is called, so there is no effect, error or panic, and nothing can be taken. A program written for every driver, with any sequence of such operations, driver calls and ordinary control flow, runs to its end without witnesses, and if its control flow does not read the variables its closures write, it calls the driver in the same way with every witness and without: a run that fails makes the first of these calls. The condition on the control flow is needed.", "quantifier": "both kinds, all types, closures with any effects, panics and errors, all programs and starting states", "why_tests_cant": "It is about all programs and closures; the tests run one program.", "anchors": ["crates/ragu_core/src/maybe/mod.rs: Maybe, MaybeKind, MaybeCast", "crates/ragu_core/src/maybe/always.rs: Always", "crates/ragu_core/src/maybe/empty.rs: Empty", "crates/ragu_core/src/maybe/cast.rs", "crates/ragu_macros/src/proc/maybe_cast.rs"]}
{"id": "C100", "title": "Kind! and the derive macros name the same type", "statement": "Kind! puts PhantomData<F> for each inferred type and the static lifetime for each inferred lifetime of a type made of paths and tuples, at any depth, and changes nothing else; none is left. For a struct with any generic parameters in any order, Kind! with inferred driver and lifetime and any other arguments names exactly the type for which the derive macros implement GadgetKind and Write; the kind of the derived gadget is that type for the driver's field, and the gadget of this kind is again the struct. The derived impl has the struct's other parameters in order with the same bounds and defaults, with the field's own parameter for the field of the driver. The macros find the driver as the first parameter with the attribute and the only lifetime of its first Driver bound, take D and 'dr if there is none, and fail otherwise.", "quantifier": "all types, all lists of generic parameters, bounds, defaults and arguments", "why_tests_cant": "The tests expand a few structs and types and compare the text.", "anchors": ["crates/ragu_macros/src/substitution.rs: replace_inferences, replace_driver_field_in_generic_param", "crates/ragu_macros/src/proc/kind.rs: evaluate", "crates/ragu_macros/src/helpers.rs: GenericDriver::extract", "crates/ragu_macros/src/derive/mod.rs: kind_subst_arguments", "crates/ragu_macros/src/derive/gadget.rs: kind_arguments, rebind_arguments, derive"]}
{"id": "C101", "title": "A gadget writes its elements from left to right and nothing else", "statement": "Writing a gadget made of elements, booleans, arrays, fixed vectors, pairs, boxes, structs that derive Write, padded content and suffixes to any buffer gives the buffer the gadget's elements from left to right, each once, without the skipped and phantom fields and with padded content filled up to one less than its size; it stops at the first element that the buffer refuses, with the buffer's error. If padded content is too long the write fails with MalformedEncoding for every buffer. How much is written, and whether it fits, depends on the kind of the gadget alone, and two gadgets of one kind that write the same agree in everything that is written. A vector collects the elements, a number counts them, and through a pipe each is allocated once on the destination driver with its value on the source driver. Header encodings are such writes.", "quantifier": "all gadgets of any nesting, all buffers and their states, all sizes", "why_tests_cant": "tests write a few gadgets of one nesting to a vector; order and error behaviour of nested implementations hold by induction on the structure of the gadget only", "anchors": ["crates/ragu_primitives/src/io.rs: Write, Buffer", "crates/ragu_primitives/src/foreign.rs", "crates/ragu_primitives/src/vec.rs: FixedVec", "crates/ragu_primitives/src/element.rs: Buffer for Vec, (), usize", "crates/ragu_primitives/src/io/pipe.rs: Pipe", "crates/ragu_macros/src/derive/gadgetwrite.rs: derive", "crates/ragu_pcd/src/step/internal/padded.rs: PaddedContent, CountingBuffer", "crates/ragu_pcd/src/internal/suffix.rs: WithSuffix"]}
{"id": "C102", "title": "The macros name ragu's crates by paths that reach them", "statement": "For every package that uses Kind! or a derive macro, with any dependencies under any names, the paths that the macro writes reach ragu_core, and ragu_primitives for derive(Write) and derive(Consistent): a direct dependency by the name the package gives it, whether or not the package also depends on ragu, and otherwise ragu, if ragu re-exports the two crates as the macros expect. The macro reports a missing crate exactly if the package neither is nor has that crate or ragu. At the pinned commit ragu re-exports nothing, so there the macros work exactly for packages that have the crates themselves.", "quantifier": "all packages, dependencies and renamings, all four macros", "why_tests_cant": "A test runs in one package with one set of dependencies; renamings and other sets need other packages.", "anchors": ["crates/ragu_macros/src/path_resolution.rs: ragu_core_path, ragu_primitives_path", "crates/ragu_macros/src/lib.rs: gadget_kind, derive_gadget, derive_write, derive_consistent", "src/lib.rs", "crates/ragu_primitives/src/lib.rs: extern crate self"]}
