# Formal model of `parmesan` (fakub/parmesan)

Parmesan is a Rust library for integer arithmetic over TFHE ciphertexts.  A ciphertext is a
vector of encrypted signed bits (digits in {-1,0,1}, least significant first).  The model
lives in `lean/Verif/Model`, the specification vocabulary in `lean/Verif/Spec.lean`, helper
proofs in `lean/Verif/Proof`, the theorems about the properties of `properties.jsonl` in
`lean/Verif/Props`.  `properties.jsonl` and `MANIFEST.json` are written by
`tools/gen_properties.py` and `tools/gen_manifest.py`.

## Trusted base

* Lean 4.33.0 kernel.  Theorems use at most the axioms `propext`, `Classical.choice`,
  `Quot.sound`; no `sorry`, no added axioms, no `native_decide`/`bv_decide`.
  (`decide +kernel` is only used over complete finite tables.)
* The reading of the Rust code as the Lean functions of `Verif/Model` (each definition
  cites file and lines).  `/repo` was read as text; nothing was built or run.
* tfhe-rs.  Its operations are the fields of a `Scheme`; a contract `Sound` says what is
  assumed of them: a phase function that is additive for add / negate / plaintext add /
  cleartext multiplication; encryption noise at most `B`; a bootstrap first rounds the
  phase to a multiple of `2^64/(2N)` with an error of at most `D` and then returns the
  negacyclic accumulator coefficient with error at most `B`.  Noise is treated as
  worst-case bounded (tfhe gives it with overwhelming probability only; C63 bounds the
  failure probability of whole computations by that of single samples).  The contract is
  not an axiom: it is a hypothesis of the theorems and a concrete scheme satisfying it
  with nonzero noise and a real secret key is constructed (`Verif/Proof/Instance.lean`).
  The bootstrap part of the contract is only assumed for inputs whose noise is at most
  `T` (field of `Sound`); the operations are shown to stay below `T = 8B, 9B or 15B`
  according to `quad_weight`.  C38 shows that nothing is assumed beyond: bootstraps of
  noisier inputs may be replaced by arbitrary junk, and that nothing less would do: schemes which only just miss the
  inequality `T + D < 2^58` give wrong results (`Props/Tight.lean`).
  C78 derives the contract from the textbook algorithms (`Model/Tfhe.lean`) for sizes where
  the worst-case bounds fit; what is then trusted is that tfhe-rs implements them (it uses
  floating-point Fourier transforms, and the shipped sizes need the probabilistic version).
* `tools/gen_asc.py`, which translates `assets/asc-12.yaml` to `Verif/Data/Asc12.lean`
  (the loader's own parsing is modelled by a function on the parsed value; C82 adds the text for the layout used).
* The layout in which Ruby's `YAML.dump` writes a hash of arrays of hashes (symbols get a leading colon) and that
  `serde_yaml` reads it (unknown fields skipped, missing fields refused, the last of equal keys kept), as in
  `Model/ChainText.lean`.  `tools/check_text.sh` compares with the repository: the text written for `asc12` is
  `assets/asc-12.yaml` byte by byte, and the head of `limit-13_v4.log` is read as `asc12`.  The search model of C73 with
  three rounds writes exactly the lines with at most three additions of the logs for 11, 12 and 13 bits (these are tests,
  not proofs).
* `lazy_static`: the initialiser of `ASC_12` runs at the first access; a panic in it poisons the
  variable for the rest of the process (`Model/AscStatic.lean`).
* For the key store: POSIX-like `std::fs` as in `Model/Keys.lean` (create truncates, writes
  append, a crash keeps what was flushed so far), `BufWriter` may flush at any moment and
  drops errors of the final flush, bincode decodes a complete export to what was exported
  and rejects proper prefixes.  The reader decodes until end of file.
* Rust semantics encoded in `Verif/Model/Rust.lean`: panics, `Err`, wrapping/checked
  arithmetic per build profile, saturating float casts, slice bounds checks.
* Parallelism: rayon `for_each` over disjoint slots and crossbeam scoped threads are
  modelled as running the tasks of a region one after another in an arbitrary order chosen
  by a scheduler (different per dynamic region).  That interleaving the tasks at the
  granularity of single bootstraps gives nothing else is proved (C69), on a copy of the model
  (`Verif/Fine/Code.lean`, generated by `tools/gen_fine.py`) over trees of parallel regions.
  What remains trusted is that a task touches no data another task of its region writes
  between two bootstraps (Rust's `&mut`/`&` rules), so that these stretches commute.

## What is modelled

| code | model |
|---|---|
| `src/ciphertexts.rs` (all but `to_str`) | `Model/Ciphertext.lean` |
| `src/params.rs` (masks, sizes, the shipped parameter set) | `Model/Ciphertext.lean` |
| `src/cloudovo/pbs.rs` (live part) | `Model/Pbs.lean` |
| `src/cloudovo/addition.rs` | `Model/Addition.lean` |
| `src/cloudovo/{signum,maximum,rounding}.rs` | `Model/Signum.lean` |
| `src/cloudovo/{multiplication,squaring}.rs` | `Model/Multiplication.lean` |
| `src/cloudovo/scalar_multiplication/naf.rs` | `Model/Naf.lean` |
| `src/cloudovo/scalar_multiplication/{asc,mod}.rs` | `Model/ScalarMul.lean` |
| `src/lib.rs:79-82`, the lazily loaded table | `Model/AscStatic.lean` |
| `assets/asc-12.yaml` | `Data/Asc12.lean` (generated by `tools/gen_asc.py`) |
| `src/arithmetics.rs` | `Model/Arith.lean` (i64), `Model/ScalarMul.lean` (ciphertexts) |
| `src/cloudovo/neural_network.rs` | `Model/NN.lean` |
| `src/userovo/encryption.rs`, `src/lib.rs` constructor | `Model/Encryption.lean` |
| `src/userovo/keys.rs` | `Model/Keys.lean` |
| `src/demos.rs` (both demos after the setup; networks generated by `tools/gen_nn.py`) | `Model/Demos.lean`, `Data/Networks.lean` |
| `src/experiments.rs` | `Model/Experiments.lean` |
| example of `README.md` | `Model/Readme.lean` |
| `src/misc.rs` counters, log level, log file; `seq_utils` | `Model/Misc.lean`, `Sched.seq` |
| `src/misc.rs` message formatting, format of log lines | `Model/Format.lean` (colours dropped) |
| `tests/` (one constructor per kind of iteration; drawn values and randomness are inputs) | `Model/Tests.lean` |
| `scripts/koyama-tsuruoka/kt.rb` | `Model/KtScript.lean` |
| `scripts/add-sub-special-chains/variant.rb`, `parse-asc_log-to-yaml.rb` | `Model/ChainScript.lean` (on numbers), `Model/ChainText.lean` (the texts) |
| `scripts/add-sub-special-chains/gen-chains.rb` (without the printing) | `Model/GenChains.lean` |
| the tfhe-rs functions the crate calls, textbook version | `Model/Tfhe.lean` |
| `scripts/optimal-multiplication` | `Model/Plan.lean` |

Not modelled: tfhe-rs internals (see contract), the bincode format and YAML beyond the layout of the chain table (a
parse function with a stated contract stands for them), other printing, timing,
commented-out code.

### Simplifications

* `f64` LUT values are exact multiples of 1/2 and kept as doubled integers.
* Recursion (`sgn`, `mul`, `squ`, max pooling, window loop) runs on fuel; running out is a
  distinct panic value and is proved unreachable for the fuel used.
* `usize` is unbounded (lengths never approach 2^64).
* The theorems about correctness assume message modulus 32, carry modulus 1 and
  `bit_precision = 5`, the only combination shipped (`params.rs:103-116`), and a polynomial
  size `2^n` with `5 <= n <= 63`.

### Techniques

* `Returns m a n`: from every state (hence under every scheduler) `m` returns `a` after `n`
  bootstraps, and the accounting macros print exact counts.  `Yields`, `Fails`, `AllFail`
  are derived.  When several parallel tasks fail, which fault is seen may depend on the
  schedule; therefore failing runs are only claimed to fail (`AllFail`).
* Relational theorems (`Proof/Oblivious.lean`): two schemes with related operations have
  related runs.  Instances: the one-point scheme (obliviousness, costs and lengths: C21,
  C23, C24), the same scheme with junk on noisy inputs (C38), terms (C39).
* `DebugOf` (`Proof/Builds.lean`): a debug run either panics by overflow or is the release
  run (C50).
* Terms (`SpecWeights.lean`): ciphertexts of the free scheme are terms, so multiplicities
  of samples and all bootstrapped words can be read off.  `Proof/Weights*.lean` prove
  bounds on them, `C39_faithful` transports them to every scheme.  Bootstraps whose output
  does not contribute to the result are not seen this way.  `SpecDepth.lean` reads depth and
  dependencies off the same terms (C54, C55); a counting scheme makes depths computable.
  `Proof/WeightHash.lean` does the same for quadratic weights: a sample is represented by a
  hash of its term; collisions can only raise the computed bound.  Terms distinguish samples
  that have different histories but are equal as ciphertexts.  `SpecMerged.lean` therefore
  numbers bootstraps by the combination they are applied to, which is exactly equality in
  every scheme with linear operations (`C80_canonical`), and adds multiplicities of equal ones.
  `Proof/Fast*.lean` evaluate products of every pair of lengths on hashes that are congruent
  for equal ciphertexts, with a proof that the evaluation bounds both kinds of weight.
* Probabilities: `SpecFailure.lean` (C63) takes the chance that one bootstrap fails as given;
  `SpecErrors.lean` (C81) takes variances of errors instead.  Independence is assumed only among
  the samples (and the rounding of the mask) that meet in one bootstrapped word.  The rounding of
  the body cannot be independent of the error (their sum lies on the grid of the look-up), so it is
  only assumed to be bounded.
* Key store: a machine of processes performing system calls; invariants over all
  interleavings, crashes and failing calls.
* Seeded bugs: `seeded/LOG.jsonl`; each mutant of the model is built in a scratch copy, and
  `first_errors` lists the declarations whose proofs stopped checking.  `theorems_failed` is
  derived from it: the property theorems among those declarations, and the property theorems
  whose proofs use one of them.  A broken lemma therefore counts against a theorem even where
  the theorem itself might be proved again; entries whose claim says "harmless" or "no claim"
  are of that kind.  For some entries a separate battery of `#eval`s also decides whether the
  mutant violates an English claim (`claims_false_on_samples`); entries without that field were
  not run through it.

## Plan per property

`value` of a ciphertext is `sum digit_i * 2^i`.  `Fresh` means: every word is trivial, or
its phase is within `B` of a multiple of the step `2^59`, and the digit is in {-1,0,1}.
The specification does not mention model helpers.

| id | approach |
|---|---|
| C01-C03 | digit/bit lemmas; Horner induction on `convert_from_vec` with the invariant `|m| < 2^i` (no overflow) |
| C04-C08 | invariant over word positions: `w_i in [-2,2]`, carry `q_i` computed from `3 w_i + w_{i-1}` absorbs the incoming carry; telescoping sum |
| C09 | cost component of the execution relation |
| C10, C11 | list induction |
| C12 | bits of `|k|` as a trivial ciphertext, then C04; separate theorem for i64::MIN |
| C13 | C31 + C26 + C27 + repeated C04 |
| C14 | blocks of four digits have the sign of their weighted sum; induction on the number of blocks |
| C15, C16 | C05 + sign + complete check of the 3x3x2 selector table |
| C17, C18 | induction on fuel; rows of the multiplication array; Karatsuba identity |
| C19 | case analysis on the tail's sign; arithmetic of floor |
| C20, C21 | case split on length; exact lengths via C23 on the shape scheme; negative theorems with witnesses; operands of different lengths: the upper half product is evaluated on shapes (`Proof/ProductTop*.lean`), the additions that follow cannot shorten it |
| C22 | execution relation quantifies over all scheduler states |
| C23 | relational (naturality) theorem between two schemes, instantiated with the one-point scheme |
| C24 | invariant "all words trivial" |
| C25 | simulation between the two instances of the generic evaluator |
| C26 | complete kernel evaluation of the generated table |
| C27 | induction over the chain |
| C28, C31 | loop invariants of the recoding; window sum |
| C29, C30 | positive part by invariant, negative part by witness; for C30 the digits of `naf_vec` are given one by one as a function of six neighbouring bits, which makes non-adjacency a statement about bit patterns (`Props/NafLocal.lean`); its weight is compared digit by digit with the true non-adjacent form, whose carries are majorities of neighbouring bits (`Props/NafWeight.lean`) |
| C32, C33, C36 | accumulator coefficient formula |
| C34, C35, C37 | phase homomorphism, rounding lemma |
| C38 | tolerance hypotheses of C32 discharged for each operation; tightness by three schemes at the borderline |
| C39 | free scheme; distinct samples for independent operands; for products and squares a scheme of hashed samples that bounds the weights of terms from above, evaluated once per length for squares (33 kernel evaluations) and for every pair of lengths for products (all 33 · 33 accepted pairs); with trivial zeros the rows of schoolbook products are followed by an invariant (`Proof/WeightsRows.lean`: a partial sum shares no sample with the next row, and its neighbouring words differ where the next row has a sample), short squares by evaluating every pattern of zeros; invariant `one sample of multiplicity at most 1 per word` for programs; witnesses for the failures |
| C40-C43, C51 | file-system state machine |
| C44 | induction over expressions |
| C45, C46 | fold invariants |
| C47, C48, C52 | structural induction over nested traces |
| C49 | case analysis; Int floor lemmas |
| C50 | the build profile is a parameter: equality of runs; witnesses for the failures; for scalars, the recoding loop in both builds side by side with an invariant saying how the digits written so far are read, which gives the exact set of scalars that panic |
| C54 | dependencies of terms; two valuations that agree on them |
| C55, C56 | depth invariants by induction; complete kernel evaluation for the lengths up to 32 that products accept |
| C57 | relational theorem between ciphertexts and numbers of words (`SpecLengths.lean`) |
| C58 | C44 / C25 for the values, C57 and the one-point scheme for lengths and costs, kernel evaluation of the fixed networks' lengths; C50 for debug builds |
| C59 | `SpecChains.lean`: all chains; residues modulo `2^16` up to sign leave 17 shifts, so the chains of up to three elements are finitely many; bit sets of the keys by chain length, one kernel evaluation per first element |
| C60 | `Within`: bounds on bootstraps whenever a value is returned, without assumptions on the arguments; a signed-digit representation with `h` nonzero digits is a chain of `h - 1` additions, so C59 bounds the shipped chain of every window |
| C61 | invariant of the loop of the experiment, from the same lemma |
| C62 | interval analysis of the positions of nonzero words (`Supp`), composed through `Within`; recurrences of Karatsuba and of squares bounded by a table over all 33 lengths; programs by simulation on numbers of words (`SpecCost.lean`) |
| C63 | symbolic run over free terms (`Traced.lean`: at most one new sample a bootstrap); samples that break their promise are patched by an exact scheme (`Patch.lean`), so C44/C25 apply; union bound over the samples, of which C62 bounds the number |
| C64 | exact cost of the schoolbook method by an invariant on the rows (encrypted block between trivial zeros); complete table of Karatsuba costs for the lengths below 16 and 17; the fuel of `mulImpl` does not matter (`Fuel.lean`) |
| C65 | small-step interleaving of the three memory accesses of an update; invariant: level plus updates still to be made; witnesses for every depth by explicit schedules |
| C66 | the loop invariant of C28 carries, for both carries, a lower bound on the weight of every representation of the low bits; at the end the bound is met unless the walk of the loop stands two above its lowest point, and then the digits from that point on are determined; runs: one induction over two digit lists of equal value up to a carry |
| C67 | the script is modelled as written (tables filled by the same loops) and compared with the complete cost tables of C56 |
| C68 | text as lists of characters, specified by lines; inductions over the text; the number formats are checked on their complete ranges (60, 1000, 256) |
| C69 | free monad of bootstraps and nested parallel regions, small-step semantics that lets any task move; a step preserves the big-step outcome in both directions and decreases a bound; compositional simulation of the model with atomic tasks |
| C70 | rounds of at most `w` simultaneous bootstraps on the trees of C69; critical path as a big-step relation; every full round shortens it (Brent); compositional bounds of the critical path, an arithmetic of critical paths for programs |
| C71 | iterations of the tests as programs of the model; passes by the value theorems on both sides (ciphertexts, `i64`), with level bounds for the random networks |
| C72 | the invariant of C28 for any way of reading bits; simulation of the Rust loop by the script |
| C73 | invariant of the search: each element refers to values earlier in its chain (merging keeps this), chains of one number have one length; the largest number grows every round |
| C74 | the words keep message modulus 32 through every operation and every table look-up has an entry for every rounded phase; lengths as in C44 |
| C75 | composition of C02, C04, C08, C09 and C03 |
| C76 | noise of linear steps by induction over the sequence; the negative part by a conforming scheme with maximal drift (`Proof/EdgeInstance.lean`), one run evaluated in the kernel and carried to all schedules by C22 |
| C77 | the static variable as a three-state machine; `scalar_mul` followed through with an arbitrary table (`Proof/AnyTable.lean`), chain values by `chainValue` |
| C78 | polynomials modulo `X^N+1` as negacyclic sequences; exact gadget recomposition up to rounding; noise of external product, CMux, blind rotation by induction; then `Sound` and everything built on it |
| C79 | complete case distinction over the 32 messages, on top of the look-up contract |
| C80 | canonical combinations: equality in all linear schemes; schoolbook and Karatsuba followed symbolically on operands padded with zeros for the failures; the evaluation of C39 on hashes that respect equality of ciphertexts for all other pairs of lengths; for the other operations the separation lemmas of C39 redone for ciphertexts (carries and refreshed words of a sum are different ciphertexts); `C80_variance`: the weight is the factor by which the variance of uncorrelated errors grows |
| C81 | subtracting from every phase the error of its combination (a key on terms, `Err.shadow`) leaves samples without noise and moves the errors into the drift of bootstraps, so C63's local theorem applies whenever each bootstrapped word's error is below half a step; sub-Gaussian tails with the weights of C80; union bound over the bootstraps counted by the run |
| C82 | texts as lists of characters; splitting at separators that cannot occur inside the pieces; layout of the file read from its last line on, so that the induction over the table is compositional; counting odd numbers for the check of the number of entries |
| C83 | `OddChain` (`SpecSearch.lean`) as independent specification; the database keeps under each new value all value sequences of the round; elements of chains with up to two additions are less than two bits wider than their values, so the loop over shifts reaches `2^(LIMIT_WID-1)`; case analysis over the two operands of the third addition |
| C84 | Model `GenChains.lean` of `gen-chains.rb` with the limit as a parameter; the database is the list of signed powers followed by pairs of them, and no entry is ever replaced since pairs have one addition |
| C85 | `Props/Budget.lean`: an operation that does not compare `quad_weight` behaves as with any other `quad_weight`, so the correctness theorems apply with a smaller one (ReLU with 41 to 84 is proved separately: one operand of its maximum is trivial); the lower bounds run single operations in the schemes of `Props/Tight.lean`.  `Props/BudgetNet.lean`: the same for networks, after replacing the operations a network does not use |
| C53 | key-store machine: reported write errors; witness of a lost flush error |

## Findings

Recorded as theorems (negations with witnesses) in `Verif/Props`:

1. 32x32-word `mul` yields 66 words, 31/32-word `squ` 65/68 words; `decrypt` rejects them
   always (the demo decrypts such a product).
2. `koyama_tsuruoka_vec` panics in debug builds by unsigned underflow (smallest k: 91).
3. Its documented weight claim is false (k = 7).
4. `naf_vec` is not a NAF (k = 11); wrong value or panic for k >= 2^31.
5. `add_const`/`encrypt` at i64::MIN: debug panic, release silently wrong.
6. Look-up with table entries >= 32: encrypted and trivial words disagree.
7. Quadratic weight of `add(x,x)` is 40 > 22; `scalar_mul(3, x)` and a product with a
   trivial 3 reach 26, and so do operands with trivial zeros (a word times a word shifted by 15, the square
   of `a·2^5 + b·2^9`), so `quad_weight` 22..25, which the constructor accepts, is not enough.
8. Key file names omit message modulus etc.; truncated key files are never repaired.
9. The chain loader checks only the number of chains.
10. The key export's last flush error is dropped (`BufWriter` drop): the constructor returns
    `Ok` although the file is incomplete.  Two first constructions at the same time can leave
    a mixed file and return mismatched keys.  A truncated file blocks all later constructions.
11. A product of 17 words takes the schoolbook method: depth 33 and 833 bootstraps, against
    depth 23 / 25 for 16 / 18 words (padding by one word would help).
12. A failing constructor of the userovo part leaves the log level changed; two processes
    can overwrite each other's log file.  Threads logging the first line at the same time can lose it or
    panic, and lines can be torn at any time (the message and the line break are two writes) (C52).
13. Both shipped demos always fail: `arith_demo` with `Err` after 7808 bootstraps (66-word
    product), `nn_demo` with `Err` in release (outputs of 86 to 90 words) and with an
    overflow panic in debug (weight -157).
14. The comment on the choice of the multiplication method (`multiplication.rs:36`) is wrong at
    14 and 17 words; the code's choice is the cheaper one (C64).
15. `LOG_LVL` is updated by racing threads when measuring without `seq_analyze`: the level drifts,
    and can underflow (debug: panic inside an otherwise correct `squ`) (C65).
16. The comment on `koyama_tsuruoka_vec` ("same Hamming weight as NAF", "greater average length of
    zeros") is wrong number by number, but not by much: at most one nonzero digit more, and this exactly for
    numbers whose top digits are 1 1 (0 1)* 1; never more runs of zeros (C29, C66).
17. The planning script is exact for products up to 28 words; for squares it is wrong from 5 words on
    (its own warning says 7) (C67).
18. `infobox!` panics on a message of more than 100 bytes whose byte 100 is inside a character; log lines
    keep minutes and seconds only, so durations of an hour or more are lost (C68).
19. A process whose first scalar multiplication happens without `assets/asc-12.yaml` in the working
    directory never recovers; exchanged chains are accepted and give wrong products silently (C77).
20. `ParmCiphertext::to_str` (`ciphertexts.rs:298-307`) prints `[[]]` for every ciphertext (no property: nothing
    depends on it).
21. `relu_plus__pi_5` (unused) computes `X - 2` for `X = 1, 2, 3` only and 0 from 4 on (C79).
22. Products of a ciphertext of 32 words and one of at most 16 words (either order) bootstrap a combination
    of quadratic weight 36 or more although `quad_weight` is 22: `mul` pads with trivial zeros, `mul_lwe` turns a
    product with one into an all-zero ciphertext (encrypted, `ciphertexts.rs:220-229`), so both half products that
    Karatsuba adds are the same sample and its noise counts twice.  Likewise 16 or 18 to 32 words times no words (C80).
23. The product of a ciphertext of three or more words with one shifted left by two words bootstraps a combination of
    weight 26 or more, at every length: the rows of `fill_mulary` for the two zeros are all-zero ciphertexts that are
    encrypted, so that words of their sum are the same sample (C80).  So does a square whose upper half starts with two
    zeros, from six words on.
24. `parse-asc_log-to-yaml.rb` cannot read the log of `variant.rb` as a whole (it raises on the separator lines, and would
    file all lines behind the warning under 0), and what it writes has a colon in front of each field name, so the library
    refuses it: the shipped table was edited by hand at both ends (C82).
25. The comment `variant.rb:8-13` is too careful: the search is exhaustive up to three additions (it says two).  With four
    it is not: with a limit of 12 bits 4019 = 2065 + 977·2 (2065 = 17 + 2^11, 977 = 2065 - 17·2^6) is missed, because
    977 has a shorter chain and chains through 2065 to it are dropped; read off `limit-12_v4.log`, not proved (C83).
