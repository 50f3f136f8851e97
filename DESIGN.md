# Formal model of ragu in Lean 4

This directory holds a Lean 4 model of the ragu proof-carrying-data code in
`/repo` and machine-checked proofs of the properties in `properties.jsonl`.

## Layout

| Path | Content |
| --- | --- |
| `lean/Verif/Model/*.lean` | executable model, function by function; every definition cites the file and lines it models |
| `lean/Verif/Spec/*.lean` | small independent specifications used in theorem statements |
| `lean/Verif/Lemmas/*.lean` | helper lemmas; nothing here is a property by itself |
| `lean/Verif/Props/*.lean` | the property theorems, with non-vacuity `example`s beside them |
| `MANIFEST.json` | which theorems prove which property |
| `seeded/LOG.jsonl` | mutation experiments (wrong programs) run against the theorems |

## Trusted base

* Lean 4.33.0's kernel and the Mathlib definitions used in statements
  (`Field`, `AddCommGroup`, `Module`, `List`, `Finset.sum`, `Polynomial`, `BitVec`).
* The axioms `propext`, `Classical.choice`, `Quot.sound`, and nothing else. No
  `sorry`, `native_decide`, `bv_decide`, or own axioms.
* The reading of the Rust source: the model is hand-written from the text of
  `/repo`; the code is not executed here.

### Modelling conventions

* A Rust field is any Mathlib `Field F`. Facts special to the Pasta fields
  (two-adicity, root of unity, cube root of unity) enter as explicit
  hypotheses on `F`. They are discharged for small fields in the examples, and for
  the Pasta fields themselves in `Props/Pasta.lean` (C75, C76).
* The values of the constants of the external crate `pasta_curves` (moduli, `b`,
  `ZETA`, `ROOT_OF_UNITY`, …) are trusted to be the ones written in
  `Model/Pasta/Fields.lean`; what they satisfy is proved.
* A curve group is any `AddCommGroup G` (with `Module F G` when scalars act).
* `usize` is `Nat` except where the property is about wrap-around
  (header suffixes, 136-bit integers), where `BitVec` is used.
* A panic (`assert!`, `unwrap`, slice index, `unreachable!`) is an explicit
  error value (`none`, or `Except.error`); a Rust `Result` stays a result.
* Loops are folds or structural recursion; `&mut` arguments become returned values.
* A circuit is the finite sequence of driver calls it makes: `gate`, `mul`,
  `alloc`, `add`, `enforce_zero` and nested `routine` calls. Rust circuits are
  driver-polymorphic, so the *structure* of the call sequence cannot depend on
  wire or witness values. For the five internal circuits this is proved of their
  code (C68); for the circuits of applications it is an assumption of the model.
* Multi-threading (`rayon`/`maybe_rayon`) is modelled as nondeterministic order.

### What is modelled

| Code in `/repo/crates` | Model | Left out |
| --- | --- | --- |
| `ragu_arithmetic` `util.rs`, `coeff.rs`, `domain.rs`, `fft.rs`, `uendo.rs` | `Util`, `Msm`, `Coeff`, `Fft`, `Uendo` | thread pool, ring-generic FFT traits |
| `ragu_circuits` `polynomials/**` | `Sparse`, `Tpoly`, `Gadget/Txz` | rank constants (any `n`) |
| `ragu_circuits` `s/*`, `metrics.rs`, `floor_planner.rs`, `trace.rs`, `raw.rs` | `Wiring`, `Sy`, `Metrics`, `Fingerprint`, `Trace`, `Witness`, `Object` | the BLAKE2b points of fingerprints (parameters) |
| `ragu_circuits` `ky.rs`, `horner.rs` | `Ky`, `Gadget/Horner` | |
| `ragu_circuits` `registry.rs` | `Registry` | BLAKE2b (a function parameter) |
| `ragu_circuits` `staging/*` | `Staging` | type-level stage hierarchies (a list of stages) |
| `ragu_core` `maybe/*`; `ragu_macros` `proc/maybe_cast.rs` | `Maybe` | that `take` and `empty` fail at compile time (here a missing value); references are values |
| `ragu_core` `drivers/*`, `gadgets/*`, `convert.rs`; `ragu_macros` derives | `Driver`, `Witness`, `Gadget/Syn`, `Gadget/Tree` | gadget lifetimes; outside `Maybe`, a value that may not exist is an `Option`, parsing of macro input |
| `ragu_macros` `path_resolution.rs` | `CratePath` | `proc_macro_crate` by its documentation; the compiler's name resolution by `Spec/CratePath` |
| `ragu_macros` `substitution.rs`, `helpers.rs`, `proc/kind.rs`, generic arguments in `derive/*` | `Macros` | parsing and printing; types other than paths, tuples, arrays, references and `_` are opaque; the number of segments of a trait in `<T as Trait>::X` |
| `ragu_primitives` gadgets, `poseidon.rs`, `vec.rs`, `simulator.rs` | `Gadget/*`, `Simulator`, `Pcd/FixedVec` | |
| `ragu_pcd` `header.rs`, `step/*`, `internal/suffix.rs`, `lib.rs` | `Pcd/Header`, `Pcd/App` | |
| `ragu_pcd` `internal/fold_revdot.rs`, `internal/claims.rs`, `internal/native/claims.rs`, `internal/nested/claims.rs` | `Claims`, `Pcd/Fold`, `Pcd/Claims` | |
| `ragu_pcd` `internal/native/unified.rs`, stages, `circuits/*` | `Pcd/Unified`, `Pcd/ComputeV`, `Pcd/Internal`, `Pcd/Stages` | see the notes in the files |
| `ragu_pcd` `internal/endoscalar.rs`, `internal/transcript.rs` | `Pcd/Endoscale`, `Transcript` | |
| `ragu_pcd` `fuse/*`, `proof/*`, `verify.rs` | `Pcd/Tracked`, `Pcd/Quotient`, `Pcd/Fuse`, `Pcd/Proof`, `Pcd/Verify`, `Pcd/Prover`, `Pcd/NestedRun`, `Pcd/FuseProgram` | the bridge polynomials and the traces are parameters of `fuseProof`; `Pcd/Prover` and `Pcd/NestedRun` say as a relation how a run obtains them |
| `ragu_testing` `pcd/nontrivial.rs`, `circuits/mod.rs`, `registry.rs` | `Pcd/Nontrivial`, `Testing` | |
| `staging/mask.rs` tests: the circuit of a mask | `MaskCircuit` | the closures that give gate values are never called |
| `ragu_pasta`, `ragu_macros` `proc/repr.rs` | `Pasta/Fields`, `Pasta/PoseidonFp`, `Pasta/PoseidonFq`, `Pasta/Cycle` | hash-to-curve (a function parameter), field and curve arithmetic of `pasta_curves` |

Each definition cites the lines it models and says where it simplifies.
`AXIOMS.md` lists the axioms of every theorem in the manifest.

### Not modelled

Performance, memory layout, `GadgetKind` lifetimes and unsafe marker traits, parsing and printing in
procedural macros, BLAKE2b,
hash-to-curve, and random number generation (random values
are universally quantified inputs).

## Plan per property

| Id | Model | Proof |
| --- | --- | --- |
| C01 | `eval`, `dot` as the Horner/zip folds | induction; compared with `∑ c_i x^i` |
| C02 | `factor_iter_inner` state machine as recursion over the reversed list | loop invariant, polynomial identity for all points |
| C03 | `geosum` loop | invariant over the remaining exponent |
| C04 | digits `get_at`, `Bucket`, window sums, combine | bucket running-sum lemma, radix decomposition, sum of windows |
| C05 | product tree on coefficient lists | induction on number of layers |
| C06 | bit reversal permutation, butterflies (iterative + recursive) | induction on log size against the DFT sum |
| C07 | `Domain::new/halve/contains/ell` | iterated squaring of a primitive root; Lagrange formula |
| C08 | `Coeff` enum | case analysis with `ring` |
| C09 | `extend_runs`, `from_coeffs`, `iter_coeffs`, double-ended iterator | invariants on emitted blocks and the gaps between them, denotation function `coeff k` |
| C10 | `combine_assign`, `scale`, `negate`, `dilate` | denotation commutes with each op; invariant induction over histories |
| C11 | `eval`, `revdot`, `fold` | denotation sums |
| C12 | `commit` (MSM over stored blocks) | sum over blocks = sum over all degrees |
| C13 | `View::build` both perspectives | denotation of each region |
| C14 | `tz`, `tx`, `txz`, `Evaluate` gadget | geometric sums by doubling |
| C15 | op-sequence circuits with `sx`, `sxy`, `sy` interpreters | induction over circuits against the specification polynomial |
| C16 | `VirtualTable` with refcounts and free list | weight-preservation invariant over any schedule |
| C17 | `Counter`, `floor_plan` | induction over circuits; prefix sums |
| C18 | trace evaluator with deferred segments; any permutation of batches | sorting distinct DFS keys is order independent |
| C19, C20 | trace assembly, `sy`, `tz`, `k` | coefficient extraction from the identity in `y`, `z` |
| C21 | `Horner`, `ky` | induction |
| C22 | error checks in `into_circuit_object` and drivers | counts are monotone and equal the measured totals |
| C23 | registry restrictions | Lagrange interpolation on the domain |
| C24 | `omega_j`, bit reversal on 32-bit/2-adic indices | bit-reversal scaling lemma |
| C25 | `RegistryBuilder` | induction over registration history |
| C26, C27 | `StageMask` | geometric sums; coefficient extraction |
| C28 | `configure_stage`, `rx_configured` | parity argument |
| C29 | `Stripped`, `BondingValidator` | from C15 |
| C30–C36 | gadgets as constraint generators over assignments | soundness: every satisfying assignment; completeness: honest witness |
| C37, C38, C54 | sponge state machine | refinement to a duplex spec |
| C39–C42 | header/suffix/step bookkeeping | case analysis, induction over histories |
| C43, C44 | `fold_revdot` | bilinear sums, two-layer composition, root counting |
| C45, C46 | claim/ky list builders, `verify` decision | list equalities for all values |
| C47–C50 | prover vs circuit combination code | Horner/quotient identities |
| C51 | endoscaling steps | chunk partition lemma |
| C52 | slots and coverage; the order of the fields and what code makes (`Spec/UnifiedOrder`) | state machine induction; sequencing of what code makes |
| C53 | `WithSuffix`, adapter outputs | coefficient extraction |
| C55 | rerandomize step | encoder equality |
| C56, C57 | drivers and accumulators | induction over circuits / calls |
| C60 | the registry digest loop | congruence of evaluations |
| C61 | claims against `circuit_y` | C19/C20 plus the key term |
| C62 | `Adapter::witness`, trivial step | unfold the adapter; values under `sim` equal published wires |
| C58, C59 | `FixedVec`, `Uendo` | case analysis; `BitVec` extensionality |
| C63 | `trivial_proof`, native part of `fuse` | induction over histories from C47–C50 |
| C64, C65 | the five internal circuits, the prover's outer error stage | one rule per gadget covers satisfying assignments and honest runs; C37 joins the two hash circuits; C43 gives the folding; C48 gives `v` |
| C66 | multi-stage circuits, traces, stage polynomials, registry claims | the sum of the trace and the stage polynomials is the trace with the stages' values in place; then C61 and C28 |
| C67 | gadget code (`Syn`) against driver calls (`Prog`), multi-stage circuits, registry claims | a relation between the two kinds of programs (`Calls`, `Supplies`); then C66 |
| C68 | the code of the internal circuits, with the stages' guards | a relation between runs on arbitrary wires and a symbolic run (`UnifR`), one rule per gadget; the symbolic run is compiled to driver calls |
| C69 | the witness code of the five native stages, `StageGuard` | run the code; the list of a gadget's elements and the gadget determine each other |
| C70 | `verify` with the five circuits of C68 and the stages of C69 in the registry | C46 splits acceptance into claims; a polynomial of low degree with many zeros is zero, for masks (C26) and circuits (C67); then C64 |
| C71 | the same | the claims of internal circuits, masks and unused places have constant and linear coefficients in `y` that an encoded header with nonzero suffix cannot have |
| C72 | all gadgets | a size for gadget code (`Sized`), one rule per gadget; loops by induction |
| C73 | the code of the five internal circuits (C68), `posRun` of the circuits | sizes add up along the code, sponge calls by a count of permutations (`permutations`); a circuit that makes the calls of sized code has its counts; then C22 |
| C74 | a run of `fuse` as a relation: transcript, stages, traces of the step and of the internal circuits, bridges and endoscaling steps over the scalar field, `fuseProof`; `Made`, the proofs of a history | induction on the history: the children's claims hold for all challenges, so the stages satisfy the recursion equations (C65), so the circuits accept, so the claims of the new proof hold for all challenges; then C46 |
| C75 | the moduli, constants and curves of the Pasta cycle (from `pasta_curves`, whose sources are not in the repository), the cycle of `ragu_pasta` | `p`: a Pratt certificate evaluated by the kernel. `q`: a chain of additions on Vesta modulo `q` shows a point of order `p` over every field in which `q` is zero; a factor of `q` below its root would give a field with too few points for that. Orders: the same chains, at most twice as many points as field elements, plus one, no point of order two. Endomorphism: it is additive, and agrees with the multiplication on the generator |
| C76 | `OmegaKey` and `low_u64` for the Pasta fields | the kernel evaluates the list of the 2^13 keys and splits it by bits until nothing is left to compare; that the list contains all roots of unity and that the check implies distinctness is proved |
| C77 | the literal constants of `poseidon_fp.rs` and `poseidon_fq.rs` | each round is injective: the matrix has an inverse (checked by the kernel, product with the inverse), 5 is invertible modulo the order of the multiplicative group |
| C78 | `repr256!`, `fp!`, `fq!` | induction on the digits; the constants are compared with the modulus one by one |
| C79 | `params_for_curve`, the build script and `Pasta::baked` | round trip by induction on the list of points; the messages differ because `to_le_bytes` is injective |
| C80 | `rerandomize` and `trivialStep` in the adapter, `endoscalingCode` | the code is uniform (the compiler lemma of C68), so one circuit makes its calls; sizes as in C72 and C73 |
| C81 | registration, `finalize` with the circuits of C73 and C80 | C41 and C42, the sizes of C73 and C80, the Pasta facts of C75 and C76 |
| C82 | `fuse`, `seed` and `rerandomize` as programs whose outcomes form a relation (random values and the order of the transcript are kept, every `?` and panic is an outcome); the cached proof of `rerandomize` is passed in and out | an outcome `ok` is a run in the sense of C74; progress goes through the rounds with a rule per call (`Safe`), honest halves of the gadget theorems for the syntheses |
| C83 | nothing new; `EndoscalingOf` says which values the polynomials over the scalar field hold | C46 for the claims, the counting of C70 for bonding claims and C67 for circuits, C51 for the steps; the independence by running `verify` on both proofs |
| C84 | gadgets as trees of wires, values, units and demoted parts (`Gadget/Tree`): `map_gadget`, `enforce_equal_gadget`, `num_wires`, `clone`, `demote`, and what the derive macros generate for a struct | induction on the tree against the list of its wires, converted one by one with a state that is passed on; `enforce_equal` by induction on both trees, with its size |
| C85 | the part of the `Counter` driver that computes fingerprints (`Fingerprint`), on code in which routines have bodies with their own numbering of wires | running code equals a walk through it with values for places (induction on code, the state of the caller is restored after a call); the scalar is a polynomial in the seven points which determines the list of linear forms, so Schwartz–Zippel bounds the points at which two scalars differ by one of the few differences with equal low 64 bits; names and places of wires correspond one to one, so forms are equal exactly if values are |
| C86 | witness code as a tree of gates, allocations, checks and routine calls with predictions, value closures that fail (`Witness`); the trace evaluator with threads as a transition system of a thread pool, the one without, both emulators | runs of code that succeed are runs of the recorded calls, to which C18 applies; the segments and errors that end up in the channel are a permutation of those of a run that spawns nothing, by an invariant of the steps; induction on code for predictions |
| C87 | nothing new; the fuse as a game (`Spec/Recursion`): a prover whose messages are functions of the challenges drawn so far, and what it takes to win | each round's bad challenges are roots of a polynomial fixed before the challenge is drawn (`Lemmas/RecursionRounds`), so a bad draw is counted by fixing the other challenges; outside of these a win gives right evaluations, right queries, right folding and so all claims of the children for the drawn `y`, `z`, and a count over `y`, `z` as in C70 gives the circuits. The honest run is C74's, read as a play |
| C88 | an application's step as gadget code with its headers (`Model/Pcd/StepProgram`); what a derived header is (`Spec/Derivation`); a prover of `k` fuses and what comes out of its runs (`Props/Derivation`) | a fuse that wins with an unsound child is counted by C87 with the other fuses' challenges fixed, so few runs have one; in the others induction on how a proof came out goes from sound proof to sound children, and the circuit of the named step, an exact translation of its code (C71), turns a satisfied trace into satisfied constraints |
| C89 | nothing new; sequences of commitments (`Spec/Blinding`) | the blinding factor is the last coefficient and changes no other (C18, C28), and commitments are sums over the coefficients (C12); an injective map between sets of one size is onto; induction on the sequence |
| C90 | nothing new; commitments and relations (`Spec/Binding`) | commitments are linear; a Vandermonde matrix of different multipliers has an inverse; what `verify` checks of the batched commitment (C70) turns a play on commitments into one on polynomials, to which C87 and C88 apply |
| C91 | nothing new; questions and answers (`Spec/Oracle`) | each round of C87 loses for few answers, whatever the transcript (`Lemmas/OracleRounds`); a question determines its round and all that the round depends on; a union bound over the questions |
| C92 | nothing new; witnesses that can be read off (`Spec/Knowledge`) | as C91, keeping the wires of the application trace instead of saying that some exist |
| C93 | the two steps and headers of the example application (`Model/Pcd/Nontrivial`); hashes and leaves in traces (`Spec/Nontrivial`) | the sponge in the steps is the duplex construction of Poseidon (C37, C38); circuits are exact translations of code, so every wire of the code is a coefficient of the trace (`Lemmas/Nontrivial`); induction on what can be read off (C92); completeness from C82 |
| C94 | the two example circuits (`Model/Testing`); the relation `a⁵ = b²` (`Spec/Testing`) | unfolding the gadgets (C30–C32), induction on the number of squarings; soundness and completeness from C61 and C67 |
| C95 | the test registry builder and its handles (`Model/Testing`); histories of registrations (`Spec/Testing`) | induction on the history, keeping where each registered object lies in the builder; the registry from C21–C25 |
| C96 | the circuit of a stage mask (`Model/MaskCircuit`), through the modelled circuit pipeline | its constraints computed by induction on gates and wires; the exponent of each constraint compared with that of its wire; sums regrouped into the closed form of C26 |
| C97 | the stored parts of a proof, by field (`Spec/ProofSize`); the calls of C82 | C82 to histories of C74; the last fuse taken apart (C63, C47), its registry polynomials from C23; well-formed polynomials are small |
| C98 | what the scalar field's polynomials hold (`Spec/Bridged`); `fuse` as a program (C82) | the bridges of a run of C82 are stages of points (C28); the wires of a list of points by induction; sums from C51 |
| C99 | the operations of `Maybe` for both kinds, closures with effects, panics and errors, and programs over them (`Model/Maybe`); `Option` with closures, scoping, control flow that does not read what closures write (`Spec/Maybe`) | cases on the kind; induction on programs, comparing the runs for the two kinds step by step |
| C100 | the syntax of types, substitution in them, `Kind!`, the driver and the generic arguments of the derive macros (`Model/Macros`); filling in and instantiating types everywhere (`Spec/Macros`) | mutual induction on types, paths, arguments and bounds; list induction on parameters |
| C101 | `write_gadget` of nested gadgets to an arbitrary stateful buffer, the counting buffer, the plain buffers and the pipe (`Model/Write`); the list of elements of a gadget and feeding a list to a buffer (`Spec/Write`) | mutual induction on gadgets, lists and fields; list induction for buffers |
| C102 | the two match expressions that choose a path, and the four macros that use them (`Model/CratePath`); packages with dependencies under any names, the documented behaviour of `proc_macro_crate`, what an absolute path names (`Spec/CratePath`) | cases on what the package is and has; uniqueness of the names of dependencies |

Cross-check with the code's own tests: `C73_recorded` derives, for every field and all constants, the ten
numbers that `test_internal_circuit_constraint_counts` records, and the examples and statements of C72
those of the gadgets' tests. So the model makes exactly as many gates and constraints as the code there.

## Findings

Where the code and the obvious reading of a property part ways. Those with a
theorem are proved; the rest were seen while reading and lie outside the model.

Proved:

* `Coeff::is_zero` is false for `Two` in characteristic 2 (`C08_is_zero_char_two_fails`). Harmless for the Pasta fields.
* The bonding validator accepts a circuit whose output is the constant wire (`C29_output_one_accepted`).
* A stage that does not fit its gates makes `rx` panic, while its mask returns an error (`C28_rx_outcome`).
* `Suffix::get` overflows for the last two application indices (`C40_wraps_fails`).
* A header's encoding does not record how long the data is, so data of different lengths that differ in trailing zeros collide (`C39_trailing_zeros`).
* When `element + i` is zero, a prover may choose bit `i` of an extracted endoscalar (`C36_extract_zero_free`). So `v` is determined by the circuit only if no such element is zero; an honest prover's bits are determined (`ExtractedBits` in `C48_agree`).
* The macros fall back on `::ragu` and `::ragu::primitives` for users who depend on `ragu` alone, but at this commit `src/lib.rs` of `ragu` re-exports nothing, so these paths lead nowhere (`C102_pinned`). `ragu_core` has no `extern crate self as ragu_core`, so `derive(Gadget)` cannot be used inside it (`C102_own_name_needed`); the repository does not do so.
* Absorbing a trailing zero before a squeeze does not change the output (`C37_trailing_zero`), and absorbing right after `resume` is not the same as never having saved (`C37_resume_then_absorb_differs`).
* In a field with fewer than 256 elements tags can collide (`C38_small_field_fails`).
* The documentation of `SquareCircuit` says it has as many gates as squarings; it has two more (`C94_square_circuit`).
* A mask reports the constraint on the constant wire among its `4n - 1` constraints (`C96_circuit`), a bonding circuit does not (`C29_counts`), though the polynomials of both lack it. The code marks the counts as ambiguous (`TODO(#614)`).
* `TestRegistryBuilder` does not enforce that circuits are registered before bonding objects, on which the handles of bonding objects depend (`C95_order_matters`).
* `add_incomplete` of a point with itself leaves the slope free (`C34_add_degenerate`); the accumulated product reports it.
* `EndoscalingStep` with a single point panics (`C51_degenerate`); the code uses 37.
* `fuse` panics if `mu` or `mu'` is zero (`C50_fuse`, `C63_progress`).
* If both children's output headers end in one, `c` is not constrained (`C64_circuits_sound`). That is the marker of the trivial header, so it also holds after `rerandomize` of a proof with the trivial header.
* `verify` accepts any circuit identifier in the registry's domain. That a proof must name a step, not an internal circuit, a mask or an unused place, only follows from the shape of the public inputs: headers end in a nonzero suffix (`C71_step`).
* With the parameters in use, `HEADER_SIZE` is limited to 65: with 66, `finalize` fails as soon as there are more than 241 steps, with 67 always, because the first hash circuit exceeds 2048 gates (`C73_header`). Nothing in the documentation of `HEADER_SIZE` says so; the error is a gate bound.
* The book (guide/configuration) suggests `HEADER_SIZE` 1 for headers of one element and 4 for headers of four, and says that mismatches are found at compile time. One place is taken by the suffix, so such headers fail at run time with a malformed encoding (`C39_encode`).
* If the challenge `u` of a fuse equals one of the points that it queries, inverting the denominators leaves a zero alone, so `fuse` is not told; but the circuit that checks `v` has no witness then. `C82_accepted` therefore assumes that `u` is none of them (probability negligible), and nothing else about the challenges.
* `verify` does not tie the polynomials over the scalar field to the rest of a proof. Those of one accepted proof can be replaced by those of another, and the result is accepted (`C83_mixed`); so the points that were combined need not be the commitments of the proof, and neither need the endoscalar be the challenge. A comment in `endoscalar.rs` leaves the missing circuits to issue #172.
* `verify` looks at none of the commitments to native polynomials but that of the batched one (`C83_unchecked`). The next `fuse` uses them, so a child with wrong ones is accepted by itself.
* `verify` does not return `false` on every bad proof. It panics if endoscaling steps are missing and returns an error if a bridge commitment is the identity (`C46_errors`).
* The documentation of fingerprints says that routines with the same fingerprint are structurally equivalent with overwhelming probability. That holds for routines without nested calls (`C85_leaf`). With nested calls, a wire of the routine's own and an output of a call can take the same place, and routines that differ in which of them is constrained always have the same fingerprint (`C85_collision`). The wires that a routine returns are not part of it either (`C85_outputs`). Nothing in the code relies on fingerprints so far.
* A routine's prediction is trusted: if it is wrong, a trace is computed without an error, from the predicted output in the caller and the executed one in the routine (`C86_unfaithful`). The wireless emulator never calls value closures, so it succeeds where computing a trace fails (`C86_emulator_lenient`). If several routines fail, the error reported depends on the schedule, and can be another one than without threads (`C86_errors`).
* A fuse says nothing about its children if both headers mark a trivial proof (the folded product is not checked then, see `C64_circuits_sound`), so C87 excludes that case. It speaks about polynomials: that the batched polynomial is the combination of those of the fuse and its children is an assumption in `Plays`. C90 replaces it by the same equation between commitments, which is still assumed (`PlaysCommitted`), because nothing in a proof ties the endoscaling to the rest (see `C83_mixed`). `C90_tied` says which ties are missing (`Tied`: the bits, the coordinates of the combined commitments and of the result), and that with them acceptance gives the equation. It also assumes that no `pre_beta + i` is zero for the honest case, as in `C36_extract_zero_free`.
* C91 puts answers that are drawn anew for each question in the place of the sponge: that Poseidon behaves like that is an assumption no model of the code can discharge. A repeated question may get another answer, which only helps the prover. Questions hold the messages (polynomials and values) where the code's transcript holds commitments to them, so it applies to provers that know an opening of each commitment when they absorb it. `pre_beta` is not an answer: the multiplier made from it is, and `B` is the set of multipliers.
* C88 follows proofs that came out of the fuses of one run: a child is either marked trivial or came out of an earlier fuse of the run. A prover who makes a child in some other way, without drawing the challenges of a fuse, is outside of it; so is a prover who computes a challenge before it has sent what the challenge depends on. Both are what the hash (Poseidon, modelled as code, not as a random function) and the commitments are meant to rule out. A step can only make an encoding out of a header's gadget (`Encoded::new_uniform` is `pub(crate)`), and for a header whose suffix is zero as a field element nothing is claimed: the suffix is a `u64`, so it is zero in a large field only if it wraps around (`C40_wraps_fails`). Rerandomizing passes the left header on whatever it is, so a derived header that ends with the trivial suffix may hold anything before it; no step can use that, because the encoding of the trivial header is a constant of the step's circuit.
* C89 is about commitments to traces and stages. The polynomials of the registry and those folded or batched from others have no blinding factor of their own, and a proof contains its polynomials in the clear: zero-knowledge, which the documentation of `fuse` leaves to `rerandomize`, is not claimed here.

Read only:

* `verify` does not check `registry_wx0`, `registry_wx1` and `registry_wy`; the code says so.
* `nested::ky_values` is aligned with the claims only for a single proof, its only use.
* `s/mod.rs` documents the constraint at `Y^(l+j)`; the code places it at `l+m-1-j`. "At most `num_coeffs` constraints" is one too many.
* The documentation of `factor` and its behaviour differ on a one-element list.
* `HEADER_SIZE = 0` underflows. A sponge of rate 0 recurses forever. Both are constants the user picks.
* `RAGU_TAG` is `FIXME`, and the registry digest uses 6 evaluation points with a `FIXME`.
* `mul` (multi-scalar) zips its arguments, so extra coefficients are dropped silently.
* Recursion depth of `free` in the virtual wire table is not modelled.
* Cloning a virtual wire inside the closure of `enforce_zero` would borrow twice.
* `Kind!` leaves `_` and `'_` inside arrays, references, `<q as ..>` and `Fn(..)` as they are (`C100_array_fails`); such a type does not compile. No use in the repository has one.
* The types of `Maybe` do not keep a closure from writing a variable that later control flow reads, so a program can call the driver differently with and without a witness (`C99_leak_fails`). No code in the repository does so as far as it was read.
* The model of a circuit in C18, C19 and C56 has witness closures that do not fail and routine predictions that are right; C86 has neither assumption and connects the two (`C86_circuit`).
