#!/usr/bin/env python3
"""Writes /verif/properties.jsonl from the table below (one JSON object per line)."""
import json, os
P = []
def p(id, title, statement, quantifier, why, anchors):
    P.append(dict(id=id, title=title, statement=statement, quantifier=quantifier,
                  why_tests_cant=why, anchors=anchors))

AR="src/arithmetics.rs"
p("C01","Integer encryption round-trip",
  "Encrypting an i64 m into w words and decrypting returns m whenever |m| < 2^w, and in general returns sign(m)*(|m| mod 2^w) (documented: 'least significant bits, including sign, are taken'); neither call fails.",
  "every i64 m except -2^63, every width w from 0 to 63, every key, all encryption randomness within the noise bound",
  "2^64 messages times 64 widths times all randomness; a test samples a handful",
  ["src/lib.rs: ParmesanUserovo::encrypt, decrypt","src/userovo/encryption.rs: parm_encrypt, parm_decrypt, convert_to_vec, convert_from_vec"])
p("C02","Word-vector encryption round-trip and rejection",
  "encrypt_vec accepts a digit vector exactly when every digit is -1, 0 or 1; an accepted vector of at most 63 digits decrypts to the sum of digit_i*2^i, and word i of the ciphertext decrypts to digit i.",
  "every vector of i32 of every length, all randomness within the noise bound",
  "unbounded vectors; the reject/accept boundary and the value must hold for all of them",
  ["src/lib.rs: ParmesanUserovo::encrypt_vec","src/userovo/encryption.rs: parm_encrypt_from_vec"])
p("C03","Decryption accepts exactly valid ciphertexts and never overflows",
  "Decryption returns Ok exactly when the ciphertext has at most 63 words and every word decrypts into {-1,0,1}; then the value is the signed binary value, no i64 overflow occurs in debug or release builds, and |value| <= 2^63-1; otherwise it returns Err, never panics.",
  "every ciphertext (any words, any length, fresh or not), both build profiles",
  "needs all 3^63 digit patterns and every malformed ciphertext",
  ["src/userovo/encryption.rs: parm_decrypt, parm_decrypt_to_vec, convert_from_vec, PARM_CT_MAXLEN"])
p("C04","Homomorphic addition",
  "add(x, y) never fails and yields a ciphertext whose value is value(x)+value(y).",
  "all ciphertexts x, y of any lengths (equal or not) whose words are fresh encryptions of, or trivial, digits in {-1,0,1}; any redundant representation; any positions of trivial zeros; every schedule; all noise within the bound",
  "3^(n+m) digit patterns, unbounded lengths, carry interactions and trivial-zero shortcuts",
  [AR+": ParmArithmetics::add","src/cloudovo/addition.rs: add_sub_impl"])
p("C05","Homomorphic subtraction","sub(x, y) never fails and yields a ciphertext of value value(x)-value(y).",
  "as C04","as C04",[AR+": ParmArithmetics::sub","src/cloudovo/addition.rs: add_sub_impl"])
p("C06","Noisy addition and subtraction are safe to decrypt",
  "add_noisy/sub_noisy never fail; the result decrypts to the exact sum/difference (documented use: only when the result gets immediately decrypted), although its words may carry up to 5 times the fresh noise.",
  "as C04, results of at most 63 words","as C04; also noise worst cases cannot be sampled",
  [AR+": ParmArithmetics::add_noisy, sub_noisy","src/cloudovo/addition.rs: add_sub_impl (refresh = false)"])
p("C07","Closure: results can be fed to further operations without limit",
  "Every result of add, sub, opp, shift, add_const, scalar_mul, sgn, max, relu, mul, squ, round_at on valid ciphertexts is again a valid ciphertext: every word is trivial or has fresh-level noise, and encrypts a digit in {-1,0,1}. Hence any number of operations can be chained.",
  "every valid input of every operation; by induction every finite circuit",
  "noise growth over unbounded depth is not testable",
  [AR+": impl ParmArithmetics for ParmCiphertext"])
p("C08","Addition: result length and trivial shortcuts",
  "If one operand consists of trivial zeros only (or is empty) the result is the other operand (negated for the subtrahend), with no bootstrap; otherwise the result has exactly one word more than the longer operand stripped of its leading trivial zeros. In all cases the length is at most max(|x|,|y|)+1, and the 'Unexpected fatal error!' branch is never taken.",
  "all ciphertexts x, y whatsoever (any word contents, words of the shipped message modulus 32), both add and sub, refreshed or noisy",
  "all patterns of trivial zeros on both sides of both operands; absence of an error branch",
  ["src/cloudovo/addition.rs: add_sub_impl"])
p("C09","Addition cost",
  "A refreshing addition performs at most 2*(w-r) bootstraps and a noisy one at most w-r, where w is the stripped length of the longer operand and r the larger number of low-order trivial zeros; exactly that many when at every position from r to w at least one operand has an encrypted word.",
  "all ciphertexts, every schedule","all shapes of all lengths",
  ["src/cloudovo/addition.rs: add_sub_impl","src/cloudovo/pbs.rs: eval_LUT_5_float"])
p("C10","Opposite","opp(x) has the length of x, uses no bootstrap, and its value is -value(x); opp(opp(x)) has the value of x.",
  "all valid ciphertexts","unbounded",[AR+": ParmArithmetics::opp","src/cloudovo/addition.rs: opposite_impl"])
p("C11","Shift","shift(x,k) has length |x|+k, uses no bootstrap and has value value(x)*2^k.",
  "all valid ciphertexts, every k","unbounded",[AR+": ParmArithmetics::shift"])
p("C12","Adding a plaintext constant",
  "add_const(x,k) never fails and yields value value(x)+k for every i64 k except -2^63; for k = -2^63 a debug build panics and a release build silently leaves the value unchanged.",
  "all valid x, all 2^64 constants, both build profiles","2^64 constants times all ciphertexts",
  [AR+": ParmArithmetics::add_const","src/cloudovo/addition.rs: add_const_impl","src/params.rs: Params::plaintext_mask"])
p("C13","Scalar multiplication",
  "scalar_mul(k,x) yields value k*value(x) in a release build, for every i32 k including i32::MIN, with the shipped chain table.",
  "all 2^32 scalars, all valid ciphertexts of any length, every schedule",
  "2^32 scalars; recoding, windowing and chains interact",
  [AR+": ParmArithmetics::scalar_mul","src/cloudovo/scalar_multiplication/mod.rs: scalar_mul_impl","src/cloudovo/scalar_multiplication/naf.rs","assets/asc-12.yaml"])
p("C14","Signum","sgn(x) yields a ciphertext of at most one word (exactly one unless x is empty) whose value is the sign of value(x).",
  "all valid ciphertexts of every length, every quad_weight (both code paths), every schedule",
  "3^n inputs, unbounded recursion depth",
  [AR+": ParmArithmetics::sgn","src/cloudovo/signum.rs: sgn_impl, sgn_recursion_raw"])
p("C15","Maximum","max(x,y) yields a ciphertext of max(|x|,|y|) words with value max(value(x),value(y)).",
  "all valid ciphertexts of any (different) lengths, every quad_weight (both code paths), every schedule",
  "3^(n+m) inputs, unbounded lengths",
  [AR+": ParmArithmetics::max","src/cloudovo/maximum.rs: max_impl","src/cloudovo/pbs.rs: max_s_2x_6y__pi_5, nonneg__pi_5"])
p("C16","ReLU","relu(x) has the length of x and value max(0,value(x)).","as C15","as C15",
  [AR+": ParmArithmetics::relu"])
p("C17","Multiplication","mul(x,y) never fails for operands of at most 32 words and has value value(x)*value(y), whichever algorithm (1-word, schoolbook, Karatsuba at any recursion depth) is used.",
  "all valid ciphertexts of any two lengths up to 32 words, trivial words included, every schedule",
  "3^64 operand patterns; Karatsuba carry growth",
  [AR+": ParmArithmetics::mul","src/cloudovo/multiplication.rs"])
p("C18","Squaring","squ(x) never fails for operands of at most 32 words and has value value(x)^2, whichever algorithm is used.",
  "all valid ciphertexts up to 32 words, every schedule","3^32 inputs",
  [AR+": ParmArithmetics::squ","src/cloudovo/squaring.rs"])
p("C19","Rounding","round_at(x,p) has value floor((value(x)+2^(p-1))/2^p)*2^p for p >= 1 (round half up) and value(x) for p = 0, for every redundant representation of the same value.",
  "all valid ciphertexts, every position p including p beyond the length","representations are not unique; ties and negative values; all lengths",
  [AR+": ParmArithmetics::round_at","src/cloudovo/rounding.rs: round_at_impl"])
p("C20","Multiplication and squaring size limit",
  "mul fails exactly when the longer operand has more than 32 words and squ exactly when the operand has more than 32 words; the failure is a panic (the trait has no error channel).",
  "all operands of all lengths and any contents (words of message modulus 32)","boundary for all length pairs, incl. recursion never hitting the limit internally",
  ["src/cloudovo/multiplication.rs: mul_impl","src/cloudovo/squaring.rs: squ_impl"])
p("C21","Products remain decryptable",
  "Products of fully encrypted operands fit the 63-word decryption limit. (Holds for mul exactly if both operands have at most 31 words and for squ exactly up to 30 words; fails for mul as soon as one operand has 32 words, even if the other has a single one: 65 words or more, 66 if both have 32; 31/32-word squ yield 65/68 words: such results can never be decrypted directly.)",
  "all fully encrypted operands of up to 32 words","the length must be known for every operand, not for samples",
  ["src/cloudovo/multiplication.rs: mul_karatsuba","src/cloudovo/squaring.rs: squ_dnq","src/userovo/encryption.rs: PARM_CT_MAXLEN","src/demos.rs: arith_demo"])
p("C22","Schedule independence",
  "The result and the number of bootstraps of every operation do not depend on the order in which parallel tasks (rayon iterators, thread scopes, nested) run; in particular the sequential build (seq_analyze) computes the same ciphertext.",
  "every operation, all inputs (valid or not, failing or not), all schedules",
  "schedules cannot be enumerated by running",
  ["src/cloudovo/addition.rs","src/cloudovo/multiplication.rs","src/cloudovo/scalar_multiplication/mod.rs","src/seq_utils/thread.rs"])
p("C23","Data obliviousness",
  "The shape of the result (length, which words are trivial and their plaintexts), the number of bootstraps and success/failure depend only on the shape of the inputs, never on encrypted contents, keys or noise.",
  "every operation, all pairs of inputs of equal shape","a relational property over all pairs of inputs",
  [AR+": impl ParmArithmetics for ParmCiphertext"])
p("C24","Fully trivial inputs need no bootstrap and no key",
  "Operations on ciphertexts all of whose words are trivial perform no bootstrap and return only trivial words, which decrypt (to the right value) without a client key.",
  "every operation, all trivial valid inputs","all inputs",
  ["src/cloudovo/pbs.rs: eval_LUT_5_float (Triv)","src/ciphertexts.rs: add_inplace, mul_const_inplace, decrypt_mu"])
p("C25","Encrypted neural network = plaintext neural network",
  "Evaluating a network on encrypted inputs yields ciphertexts whose values are the outputs of evaluating the same network on the plaintext i64 inputs, provided the plaintext evaluation does not overflow.",
  "all networks (any layers, weights, biases except i64::MIN, perceptron types), all valid inputs, release build with the shipped chain table (debug builds: see C50)",
  "all networks and inputs",
  ["src/cloudovo/neural_network.rs: NeuralNetwork::eval"])
p("C26","Shipped chain table is correct",
  "assets/asc-12.yaml contains exactly one chain for each odd number below 4096, every chain refers only to earlier elements, and evaluates to its key.",
  "all 2048 chains","complete check of the table lifted to all inputs by C27 (the loader's own check is commented out)",
  ["assets/asc-12.yaml","src/cloudovo/scalar_multiplication/asc.rs: map_from_yaml"])
p("C27","Chain evaluation",
  "Evaluating a chain on a ciphertext x gives value chain_value*value(x), where chain_value is its evaluation on 1 over i64.",
  "every well-formed chain, all valid x","all chains and all inputs",
  ["src/cloudovo/scalar_multiplication/asc.rs: AscEval::eval, AscValue::value"])
p("C28","Koyama-Tsuruoka recoding is a representation",
  "koyama_tsuruoka_vec(k) has digits in {-1,0,1}, its signed binary value is k, its most significant digit is 1 (k >= 1) and it has at most bitlen(k)+1 digits; release build.",
  "all u32 k","2^32 inputs; loop invariants",
  ["src/cloudovo/scalar_multiplication/naf.rs: koyama_tsuruoka_vec"])
p("C29","Koyama-Tsuruoka weight",
  "The documented claim 'same Hamming weight as NAF' for the recoding. (False: k = 7 gives weight 3, NAF weight 2. The weight never exceeds the binary Hamming weight; it exceeds the smallest possible one, by one, exactly if the digits read from the top are 1 1, then 0 1 any number of times, then 1.)",
  "all u32 k","2^32 inputs",
  ["src/cloudovo/scalar_multiplication/naf.rs: koyama_tsuruoka_vec (doc comment)"])
p("C30","naf_vec is a representation",
  "naf_vec(k) has digits in {-1,0,1} and value k for k < 2^31; it is documented as the standard non-adjacent form. (False: k = 11 yields adjacent nonzeros; below 2^31 the result is non-adjacent exactly when the bit pattern 01011 does not occur in k; it has one nonzero digit more than a shortest representation for every two runs of at least two ones that are linked by single ones and single zeros; for k >= 2^31 the code shifts by 32, panicking in debug builds and, for odd k, yielding value k + 2^32 in release builds.)",
  "all u32 k","2^32 inputs",
  ["src/cloudovo/scalar_multiplication/naf.rs: naf_vec"])
p("C31","Window decomposition",
  "wind_shifts(k, b) returns windows (w_i, s_i) with sum w_i*2^(s_i) = k, every w_i odd, |w_i| < 2^b, and shifts increasing by at least b; so with b = 12 every window is a key of the chain table.",
  "all k >= 1, all window widths 1 <= b <= 31, release build","2^32 inputs and all widths",
  ["src/cloudovo/scalar_multiplication/naf.rs: wind_shifts"])
p("C32","Bootstrapping evaluates the look-up table",
  "Evaluating a 16-entry table on an encrypted word of value m (mod 32) with noise below the tolerance gives an encryption, with fresh noise, of table[m] for m < 16 and of -table[m-16] for m >= 16.",
  "every table with entries below 32, every m, all noise within the tolerance, every polynomial size divisible by 32",
  "all tables, all noise values, boundary effects of the accumulator rotation",
  ["src/cloudovo/pbs.rs: eval_LUT_5_uint, gen_no_padding_acc"])
p("C33","Trivial words and encrypted words agree under look-up",
  "A look-up on a trivial word gives a trivial word with the same decrypted value as the look-up on an encryption of the same message, for every table with entries below 32. (False for larger table entries: the encrypted path saturates.)",
  "every table with entries below 32, every message","all tables",
  ["src/cloudovo/pbs.rs: eval_LUT_5_float"])
p("C34","Word operations are homomorphic modulo 32",
  "add, sub, opp and mul_const on words act on messages as the integer operations modulo 32, with noise growing by at most the sum / the factor; mixtures of trivial and encrypted words included.",
  "all words, all i32 constants above i32::MIN, all noise within budget","all combinations",
  ["src/ciphertexts.rs: add_inplace, sub_inplace, opp_inplace, mul_const_inplace"])
p("C35","Word encoding",
  "A word encrypting any i32 m decrypts to the representative of m modulo 32 in [-16, 16) as long as the noise is below half a step, and to something else for some noise at the bound; trivial words decrypt exactly.",
  "all i32 messages, all noise values","all noise values",
  ["src/ciphertexts.rs: encrypt_word, encrypt_word_triv, decrypt_mi, mi_to_mu, mu_to_mi, pt_to_mu"])
p("C36","Non-negativity test",
  "nonneg on a word of value m in [-16,16) yields 1 if m >= 0 and 0 otherwise, on encrypted and trivial words alike.",
  "all words within the noise tolerance","all noise values",
  ["src/cloudovo/pbs.rs: nonneg__pi_5","src/ciphertexts.rs: add_half_inplace"])
p("C37","No plaintext without the key",
  "Decrypting a non-trivial word without a client key is an Err, never a value; decrypting a trivial word never needs the key.",
  "all words","all words",["src/ciphertexts.rs: decrypt_mu, decrypt_mi"])
p("C38","Noise budget is sufficient",
  "If bootstrapping tolerates t times the fresh noise (plus its rounding drift), with t = 15 for quad_weight >= 85, 9 for 41..84 and 8 below, then every look-up performed by every operation on valid inputs is within tolerance, so all results above hold. None of the three factors can be lowered: with equality instead of the strict inequality, addition, maximum and sign go wrong in some conforming scheme.",
  "all operations, inputs, noise values; all three quad_weight ranges","worst-case noise is not samplable",
  ["src/cloudovo/signum.rs: quad_weight >= 85","src/cloudovo/maximum.rs: quad_weight >= 41","src/lib.rs: MIN_QUAD_WEIGHT"])
p("C39","Quadratic weights",
  "The quadratic weight (sum of squared multiplicities of independent fresh samples) of every bootstrapped word is within the parameter quad_weight: 20 for addition, 22 claimed as global minimum, 41 / 85 on the guarded paths. (Fails when an operand is used twice: add(x,x) reaches 40, scalar_mul(3,x) and mul(x, trivial 3) reach 26, as do a product with a word shifted by 15 and the square of a*2^5+b*2^9, although quad_weight 22 to 25 is accepted. Products of up to 15 or of 17 words and squares of up to five words keep within 21 wherever words are trivial zeros.) Whatever the operands, the linear weight (sum of absolute multiplicities) stays within 8, 9 (quad_weight >= 41) or 15 (>= 85).",
  "all operations on pairwise independent fresh inputs, all parameters accepted by the constructor","all circuits",
  ["src/lib.rs: MIN_QUAD_WEIGHT","src/cloudovo/signum.rs","src/cloudovo/maximum.rs"])
p("C40","Constructor gate","Creating a user-side instance succeeds only if quad_weight >= 22; below it always returns Err and neither the key directory nor any key file is touched.",
  "all parameter sets, all file-system states","all parameter values",
  ["src/lib.rs: ParmesanUserovo::new, MIN_QUAD_WEIGHT"])
p("C41","Key persistence",
  "After a successful first construction (alone, without failing system call), every later construction with the same parameters (by any number of processes, concurrently or one after another) returns the same key pair and leaves the file unchanged, so earlier ciphertexts stay decryptable.",
  "all histories of constructions for any parameter sets with distinct file names","unbounded histories",
  ["src/userovo/keys.rs: PrivKeySet::new"])
p("C42","Crash during key export",
  "A crash at any point of the first construction leaves a state from which a later construction still succeeds. (False: a crash between creation and the last flush leaves a truncated file and every later construction fails with Err until the file is removed. Crashes before file creation or after completion are harmless; a truncated file never yields wrong keys.)",
  "every crash point (every prefix of the written bytes)","all crash points",
  ["src/userovo/keys.rs: PrivKeySet::new (File::create, bincode::serialize_into)"])
p("C43","Key file names",
  "Two parameter sets get the same key file exactly when they agree on n, N, gamma, l, kappa, t. In particular sets differing only in message modulus, GLWE dimension or noise share a file, so the second is silently given keys for the first.",
  "all pairs of parameter sets","all pairs",
  ["src/userovo/keys.rs: PrivKeySet::filename_from_params"])
p("C44","Whole computations",
  "Any expression built from inputs, constants and the twelve operations evaluates without failure to a valid ciphertext whose value is the exact integer value of the expression, and decrypts to it when it has at most 63 words; multiplication operands must have at most 32 words.",
  "all expressions of any depth, all inputs, every schedule; scalars in release builds (debug builds: see C50)","unbounded circuits",
  [AR+": ParmArithmetics"])
p("C45","Bit length","bit_len_32/bit_len_64 return the position of the highest set bit plus one (0 for 0).",
  "all u32 / u64 values","2^64 inputs",["src/userovo/encryption.rs: bit_len_32, bit_len_64"])
p("C46","Hamming weight","bin_hw returns the number of nonzero digits exactly when all digits are in {-1,0,1} and Err otherwise.",
  "all digit vectors (entries above i32::MIN)","unbounded",["src/userovo/encryption.rs: bin_hw"])
p("C47","Bootstrap accounting (seq_analyze)",
  "The count reported when an operation finishes is the number of bootstraps executed between its start and finish, including nested operations, and the counter stack is restored.",
  "all nestings of operations","unbounded nesting",
  ["src/misc.rs: start_pbs_analysis!, finish_pbs_analysis!","src/cloudovo/pbs.rs: N_PBS"])
p("C48","Log level is balanced (measure, single thread)",
  "Nested measurements restore the log level, for nesting depth up to 255. (For greater depth the level saturates and is not restored; with an early return inside a measured block it is not decremented.)",
  "all nestings","unbounded nesting",["src/misc.rs: measure_duration!","src/cloudovo/addition.rs: early return inside measure_duration!"])
p("C49","Plaintext reference arithmetic",
  "The i64 instance computes the exact integer operations whenever the exact result fits i64; its round_at is the same round-half-up function as the encrypted one, for 1 <= p <= 62, and it panics for p >= 63 where the encrypted one does not.",
  "all i64 inputs, all positions","2^64 inputs",
  [AR+": impl ParmArithmetics for i64"])
p("C50","Debug and release builds agree",
  "No operation panics by overflow in a debug build. (False: the recoding subtracts 1 from an unsigned bit, so scalar_mul panics in debug builds e.g. for k = 91, and in general exactly when the digits of |k| (up to its leading bit) hold two -1 with a 1 above them and no 1 between them; encrypt/add_const/scalar_mul also do at the most negative integer. All other operations do not depend on the profile.)",
  "all inputs of all operations","all inputs",
  ["src/cloudovo/scalar_multiplication/naf.rs: koyama_tsuruoka_vec","src/userovo/encryption.rs: convert_to_vec"])
p("C51","Concurrent first construction",
  "When two processes construct for the same parameters concurrently, both end up with the same keys as stored. (False: both may generate, the later writer wins and the other keeps keys that no file holds; a reader may see a truncated file and fail; and a reader may load a client key of one pair with the server key of the other.)",
  "all interleavings of two constructions","interleavings",
  ["src/userovo/keys.rs: PrivKeySet::new"])
p("C52","Operation log file","The first log line of a process replaces any older log file and later lines are appended, so the file holds exactly the lines logged by this process in order (single thread, file not removed meanwhile). Once the log is initialised any number of threads may log at any time: no text is lost, overwritten or refused, though lines can be torn, because the line break is written separately. Threads logging the first line at the same time can lose a line or panic.",
  "all sequences of log calls, any initial file content, all interleavings","unbounded histories and interleavings",["src/misc.rs: parm_log_plain!"])
p("C53","Export errors are reported",
  "If the keys could not be written completely, the construction returns Err. (False: the last buffered bytes are written when the BufWriter is dropped, where errors are ignored; the construction returns Ok, and since the file is truncated no later construction succeeds.)",
  "every failing system call of the first construction","needs fault injection at every write",
  ["src/userovo/keys.rs: PrivKeySet::new (BufWriter, bincode::serialize_into)"])
p("C54","Parallel addition is local",
  "Word i of a sum or difference (refreshed or noisy) depends only on the words i, i-1 and i-2 of the operands: replacing other encrypted words by any others leaves it unchanged, so carries never ripple further.",
  "all ciphertexts of any length, all positions, every scheme and schedule","unbounded lengths, all positions",
  ["src/cloudovo/addition.rs: add_sub_impl"])
p("C55","Bootstrap depth",
  "The number of bootstraps that must run one after another is at most 2 for add, sub and add_const whatever the length, 1 without refreshing, ceil(log4 n) (one more below quad_weight 85) for the sign of n words, that plus a constant for max, relu and round_at, 2n-1 for mul (n+10 from 18 words on), n+4 for squ, 12 for scalar_mul by any scalar. For products and squares of encrypted operands the exact depth is known for every length.",
  "all lengths, all scalars","all lengths; depth is not observable by running",
  ["src/cloudovo/addition.rs","src/cloudovo/signum.rs","src/cloudovo/maximum.rs","src/cloudovo/rounding.rs","src/cloudovo/multiplication.rs","src/cloudovo/squaring.rs","src/cloudovo/scalar_multiplication/mod.rs","assets/asc-12.yaml"])
p("C56","Cost of products and squares",
  "The number of bootstraps and of result words of mul and squ on encrypted operands of n <= 32 words depends on n only and is given by a table: 3n^2-2n bootstraps for the schoolbook lengths (n <= 15 and n = 17), fewer with Karatsuba; a square always costs less than the product.",
  "all lengths accepted, all contents, every scheme and schedule","all contents and schedules",
  ["src/cloudovo/multiplication.rs: mul_impl, mul_karatsuba","src/cloudovo/squaring.rs: squ_impl, squ_dnq"])
p("C57","Numbers of words of results",
  "On encrypted operands the number of words of every result of every program and network is determined by the numbers of words of the inputs alone and given by explicit rules (add: the longer operand plus one, scalar_mul: by the windows of the scalar, ...), whatever the contents, keys and schedule. In particular a running sum of n one-word encryptions has n+1 words although its value needs only log2(n)+1 bits, so with 64 of them it cannot be decrypted.",
  "all programs and networks, all numbers of words, all contents","unbounded programs; all contents",
  ["src/arithmetics.rs","src/cloudovo/addition.rs: add_sub_impl","src/cloudovo/neural_network.rs: eval","src/userovo/encryption.rs: parm_decrypt"])
p("C58","The shipped demos pass",
  "arith_demo and nn_demo run to the end and print PASS for every line. (False: for all keys and randomness arith_demo performs 7808 bootstraps and then returns Err, because the 32-bit product has 66 words and cannot be decrypted; its other lines except the 32-bit square would pass. nn_demo returns Err in a release build since all 16 outputs have 86 to 90 words, and panics by overflow in a debug build. With the small network demo_nn it passes for all inputs of 11 bits in both builds.)",
  "all keys, randomness and schedules, both builds; for networks all inputs of 11 bits","all keys and randomness; all inputs",
  ["src/demos.rs: arith_demo, nn_demo, demo_nn, arrhythmia_nn","src/userovo/encryption.rs: parm_decrypt"])
p("C59","Shipped chains are optimal",
  "For every odd multiplier below 2^12, no sequence of additions and subtractions of earlier values (the right one shifted arbitrarily far), starting from the operand, computes the multiple with fewer additions than the shipped chain; in particular no other chain the library could evaluate is shorter.",
  "all 2048 entries of the table, all chains of any form, with unbounded shifts and intermediate values","infinitely many competing chains",
  ["assets/asc-12.yaml","src/cloudovo/scalar_multiplication/asc.rs: Asc::eval","src/experiments.rs: 'using optimal ASC's'"])
p("C60","Cost of scalar multiplication",
  "scalar_mul(k, x) performs at most A * 2(n + l + 6) bootstraps, where n is the number of words of x, l a bit length of |k|, and A the number of nonzero digits of the recoding of |k| minus one, hence at most the number of one bits of |k| minus one, and never more than 14. In particular the windows and chains never cost more than adding shifted copies digit by digit, and multiplying by plus or minus a power of two is free.",
  "all i32 scalars, all ciphertexts (valid or not, any length, any noise), any scheme, both builds, all schedules","2^32 scalars and all lengths; worst case over all recodings",
  ["src/cloudovo/scalar_multiplication/mod.rs: scalar_mul_impl","src/cloudovo/scalar_multiplication/naf.rs: wind_shifts","src/cloudovo/scalar_multiplication/asc.rs: Asc::eval","src/cloudovo/addition.rs: add_sub_impl"])
p("C61","The experiment on additions",
  "avg_adds_in_scalar_mul ends in a release build and its optimised total does not exceed the naive one: every window (up to 12 digits over {-1,0,1}, odd value) has a shipped chain with at most as many additions as its nonzero digits minus one. In a debug build it panics by overflow.",
  "all windows over {-1,0,1} of at most 12 digits; the whole run of the experiment, both builds","all 2*3^11 windows and the invariant over the whole loop",
  ["src/experiments.rs: avg_adds_in_scalar_mul","assets/asc-12.yaml","src/cloudovo/scalar_multiplication/naf.rs: koyama_tsuruoka_vec"])
p("C62","Worst-case cost of every operation, program and network",
  "Whatever the operands (any lengths, any mixture of trivial and encrypted words, valid or not), if an operation returns: mul took at most 3n^2 bootstraps and returns at most 2n+2 words (n: words of the longer operand), squ at most 5n^2/2 and 2n+4 words, add/sub at most 2n, sgn at most n (n/2 rounded up with quad_weight >= 85), max at most 5n+1 (7n/2+1), relu at most 3n+1 (3n/2+1), round_at at most 2n+1; adding k ciphertexts of n words one after the other at most k(2n+k-1). For whole programs and networks the bounds compose: running them on numbers of words bounds bootstraps and words of every run, e.g. at most 522402 bootstraps for the shipped arrhythmia_nn on any inputs of 11 words. The bound of products is attained for the schoolbook lengths.",
  "all ciphertexts, programs and networks, any scheme, any schedule","worst case over all shapes (4^n mixtures of words and more), unbounded programs",
  ["src/cloudovo/multiplication.rs: mul_impl","src/cloudovo/squaring.rs: squ_impl","src/cloudovo/signum.rs: sgn_recursion_raw","src/cloudovo/maximum.rs: max_impl","src/cloudovo/rounding.rs: round_at_impl","src/cloudovo/neural_network.rs: eval"])
p("C63","Failure probability of whole computations",
  "Let encryptions and bootstraps keep their noise bound with a probability of at least 1-eps each, failing in whatever way and however dependent on each other (the linear operations being exact). Encrypt inputs, run any program or network on the cloud and decrypt: the probability that it does not return, or that a result of at most 63 words does not decrypt to the exact integer value, is at most eps times (number of encrypted words + worst-case number of bootstraps of C62). Without probabilities: a result is right whenever the encryptions and bootstraps it is made of keep their bound, whatever the others do.",
  "all probability spaces, schemes, keys, programs, networks, inputs","a failure probability of 2^-40 cannot be observed by running tests; the bound is over all dependent failure modes",
  ["src/cloudovo/pbs.rs","src/userovo/encryption.rs: parm_encrypt, parm_decrypt","src/params.rs"])
p("C64","Multiplication chooses the cheaper method",
  "Multiplying two fully encrypted ciphertexts of n words by the schoolbook method takes exactly 3n^2-2n bootstraps (any n >= 2). For every n from 2 to 32, mul takes the minimum of the bootstraps of the schoolbook method and of Karatsuba's method (with mul for the smaller products); the two never tie, and Karatsuba's is cheaper exactly for n >= 16 other than 17. (The comment in the code says Karatsuba for 14 or >= 16: with 14 words that would cost 572 instead of 560, with 17 words 843 instead of 833.) Fewest bootstraps is not shortest latency: with 15 words Karatsuba's method has depth 23, the chosen one 29.",
  "all schemes, operands, schedules; all lengths for which there is a choice","the tests compare decrypted values only; nothing compares the two methods' costs, and the one not chosen cannot be called",
  ["src/cloudovo/multiplication.rs: mul_impl, mul_karatsuba, mul_schoolbook"])
p("C65","Log level with several threads",
  "Feature measure without seq_analyze: threads update the shared log level by compare, read, store. For n measured blocks in any number of threads, nested and interleaved in any way, started at a level between n and 255-n: nothing panics and the level stays within n of where it started; one thread alone restores it; with atomic updates all threads together would. It is not restored in general: d nested blocks in one thread and one block in another can leave it raised or lowered by d, for every d; and at the outermost level a single squ of four words can underflow the level (panic in debug builds, 255 in release builds).",
  "all interleavings, nestings, numbers of threads, builds","interleavings of data races cannot be enumerated by running tests",
  ["src/misc.rs: measure_duration!","src/lib.rs: LOG_LVL","src/cloudovo/squaring.rs: squ_dnq"])
p("C66","Recoding against the non-adjacent form",
  "For every nonzero u32 the release build of koyama_tsuruoka_vec needs at most one nonzero digit more than any signed binary representation of k, so exactly the weight of the non-adjacent form or one more (one more exactly if the digits read from the top are 1 1 (0 1)* 1), and its zeros form at most as many maximal runs as in any non-adjacent form of k. That the average run is longer, as the comment says, does not hold number by number (k = 14).",
  "all nonzero u32, all signed binary representations of k of any length","the set of representations of one k is infinite and the optimum over it is not computed by any code in the repository",
  ["src/cloudovo/scalar_multiplication/naf.rs: koyama_tsuruoka_vec"])
p("C67","Predictions of the planning script",
  "scripts/optimal-multiplication predicts the bootstraps of products and squares. For two encrypted operands of 1 to 32 words: its table of products is exact up to 28 words and too low by at most 42 above; its schoolbook formula is exact at every length from 2 on; it chooses Karatsuba's method exactly where the code does and where it is cheaper. Its table of squares is exact only for 1, 2, 3, 4, 6, 8 and 12 words, first wrong at 5 words, never off by more than 52.",
  "all ciphertexts, schemes, schedules, all accepted lengths","the script runs separately from the library; the counts depend on which words turn out trivial inside recursive calls",
  ["scripts/optimal-multiplication/search-optimum-multiplication.rb","src/cloudovo/multiplication.rs: mul_impl","src/cloudovo/squaring.rs: squ_impl"])
p("C68","Messages and log lines",
  "infoln!, dbgln! and parm_error! print a message of any number of lines with every line indented by the log level, and level and message can be read back from what infoln! prints. infobox! shows the first 100 bytes with line breaks replaced, in three lines of equal width; it never panics on ASCII messages and panics exactly if the message has more than 100 bytes and byte 100 is inside a character. A line written by parm_log_ts! determines level and message, but start and end only up to whole hours.",
  "all messages (any characters, any number of lines), all levels, all times","messages are unbounded text; injectivity speaks about pairs of messages",
  ["src/misc.rs: parm_format_info!","src/misc.rs: parm_format_dbg!","src/misc.rs: parm_format_err!","src/misc.rs: parm_format_infobox!","src/misc.rs: parm_log_ts!"])
p("C69","Any interleaving of the tasks gives the same result",
  "Every operation, program and network ends, whatever the interleaving of the bootstraps of its parallel tasks (of all nested regions), with one and the same ciphertext after one and the same number of bootstraps: those of any run in which tasks are executed one after another. If such a run fails, every interleaving fails. With valid operands the result decrypts to the exact value in every interleaving.",
  "all schemes, operands, programs, networks; all sequences of steps of the tasks","the number of interleavings grows exponentially with the number of tasks; a test runs one of them",
  ["src/cloudovo/addition.rs: add_sub_impl","src/cloudovo/multiplication.rs: mul_karatsuba","src/cloudovo/squaring.rs: squ_dnq","src/cloudovo/signum.rs: sgn_recursion_raw","src/cloudovo/scalar_multiplication/mod.rs: scalar_mul_impl"])
p("C70","Time on a number of workers",
  "If a bootstrap takes one unit of time on one of w workers and nothing else takes time, an operation, program or network with n bootstraps has a critical path d such that every schedule takes at least d and at least n/w units of time, every schedule without idle workers takes at most n/w + (1-1/w)d, hence at most twice the time of the best one, all with the same result. d is the time with workers enough: for sums and differences at most 2 (1 without refresh) whatever the number of words, and as many workers as words are enough; for the signum of 4^k words at most k+1; for products at most 2n-1 below 18 words and n+10 from 18; for whole programs and networks it is computed from the numbers of words (17056 for arrhythmia_nn on inputs of 11 words, of 522402 bootstraps).",
  "all schemes, operands, programs, networks; all numbers of workers; all schedules","a measurement sees one schedule on one machine; lower bounds speak about all schedules",
  ["src/cloudovo/addition.rs: add_sub_impl","src/cloudovo/multiplication.rs: mul_impl","src/cloudovo/signum.rs: sgn_recursion_raw","src/cloudovo/squaring.rs: squ_impl","src/cloudovo/neural_network.rs: eval"])
p("C71","The test-suite cannot fail by chance",
  "Every iteration of every test in tests/ passes in a release build, for every value its random generators can draw, every mode of encryption of the words, every encryption randomness, key and schedule; so does the whole suite, whatever the number of iterations. In a debug build an iteration passes unless the scalar drawn by the tests of scalar multiplication or of the recoding is one whose recoding overflows, and then it panics (91 is one).",
  "all tests, all drawn values, all randomness, all schedules","the tests draw some hundred values of a space of more than 2^60; a rare failing draw would be a flaky test or a missed bug",
  ["tests/common/mod.rs","tests/test_addition.rs","tests/test_multiplication.rs","tests/test_scalar_multiplication.rs","tests/test_nn.rs","tests/test_pbs.rs"])
p("C72","The prototype of the recoding and the library agree",
  "The script scripts/koyama-tsuruoka/kt.rb and koyama_tsuruoka_vec recode every u32 into the same digits (in a debug build the library may panic by overflow instead). For numbers of any size the script returns digits in {-1,0,1}, at most one nonzero digit more than any representation, that stand for the low n bits with a one in front, n being the computed floor of the logarithm: so it is right exactly when the floating-point logarithm is (it is not for 2^49-1).",
  "all numbers, all roundings of the logarithm","the script prints one random number at a time and has no tests",
  ["scripts/koyama-tsuruoka/kt.rb","src/cloudovo/scalar_multiplication/naf.rs: koyama_tsuruoka_vec"])
p("C73","The search for chains only keeps right chains",
  "For every width limit and every number of rounds, scripts/add-sub-special-chains/variant.rb keeps under each number only addition-subtraction chains that compute this number from 1, all with the same number of additions; every number is positive and odd and listed once. The table written by parse-asc_log-to-yaml.rb has an entry for each of them, with the printed number of additions, and evaluating an entry the way scalar_multiplication does multiplies a ciphertext by its number. With a limit of two bits or more no run raises; with a smaller limit the second round always does.",
  "all limits, all numbers of rounds, all ciphertexts","the scripts ran for hours, once, with one limit; only their output is kept",
  ["scripts/add-sub-special-chains/variant.rb","scripts/add-sub-special-chains/parse-asc_log-to-yaml.rb","src/cloudovo/scalar_multiplication/asc.rs"])
p("C74","No operation fails whatever the words hold; only decryption can notice",
  "On ciphertexts of words of message modulus 32 with any contents (any noise, another key, trivial words of any value) every arithmetic operation returns a ciphertext of such words within the same length bounds as for valid operands; a whole program can only fail by a factor of more than 32 words. So wrong or too noisy ciphertexts go unnoticed until decryption, which rounds each word to the nearest digit and returns the value if all are in {-1,0,1}, the alphabet error if not, the length error for more than 63 words, and never panics.",
  "all word contents, all lengths, all programs, all schedules, all keys","there are 2^64 phases per word and no test feeds noise",
  [AR+": impl ParmArithmetics for ParmCiphertext","src/userovo/encryption.rs: parm_decrypt, convert_from_vec","src/ciphertexts.rs: decrypt_mi"])
p("C75","The example of the README works exactly up to 62 digits",
"The program of the README (encrypt_vec of two vectors, add, decrypt, compare with the sum of convert_from_vec) prints PASS and the exact sum for all vectors over {-1,0,1} of at most 62 digits, with 2 bootstraps per digit of the longer vector; the vectors of the README give 581051028 after 64 bootstraps. From 63 digits on (if no vector is empty) it returns Err because the sum has 64 words; an entry outside the alphabet is refused with Err. Whatever the scheme and the cloud do, PASS is printed exactly if the decrypted sum is the exact one.",
"all vectors of i32, all keys and randomness, all schedules, both builds",
"the example is run with one pair of vectors and one key; the limit is not mentioned anywhere and lies one digit below that of decrypt",
["README.md:65-116","src/userovo/encryption.rs:32-47","src/userovo/encryption.rs:109-121","src/cloudovo/addition.rs:20-160"])

p("C76","What may follow a noisy addition",
"A result of add_noisy or sub_noisy may go through any sequence of opp and shift before its decryption: no bootstrap is added and the decrypted number is exact (up to 63 words). Any other use is outside of the contract, as the documentation says, and for a reason: with the shipped parameters and primitives that meet their contract, the product of a noisy 2 with a fresh 1 can decrypt to 0, the square of a noisy -2 to -12 and the ReLU of a noisy -14 to -6, without any error.",
"all valid operands, all sequences of opp and shift, all conforming primitives; the wrong results hold under every schedule",
"noise near the limit is never met by a test run with real keys, so a misuse passes all tests until it silently fails",
["src/arithmetics.rs:50-66","src/arithmetics.rs:219-232","src/arithmetics.rs:278-320","src/cloudovo/addition.rs:132-149"])

p("C77","The chain table is loaded once and not checked",
"All scalars but 0, 1 and -1 need the table assets/asc-12.yaml (release build). Whether the file is fine at the first call that needs it decides for the whole process: if it was loaded, later changes of the file do not matter; if it was missing, not readable or had not 2048 chains, that call and every later call with another scalar than 0, 1, -1 panics, also after the file was put in place. The loaded chains are not checked: scalar_mul(k, x) is x times the sum of what the chains of the windows of k are worth, or a panic if one of them is missing or ill-formed. With two chains exchanged 3x is silently 5x.",
"all sequences of calls with the file changing between them, all i32 scalars, all tables, all valid operands, all schedules",
"tests run with the shipped file in place; the once-only loading cannot be reset inside a test process, and the tables are not enumerable",
["src/lib.rs:73-82","src/cloudovo/scalar_multiplication/asc.rs:93-129","src/cloudovo/scalar_multiplication/mod.rs:43-103"])

p("C78","Correct from the bits of the keys on",
"Put the crate on top of the textbook TFHE algorithms (key switch, switch to the modulus 2N, blind rotation with external products, sample extraction; exact polynomial products): with any key bits, masks and noise within bounds that fit the sizes, encrypting numbers, running any program of operations and decrypting gives the exact results; the bounds on noise and drift the other properties assume of the primitives are computed from the sizes. The drift of each bootstrap is given exactly as a sum of rounding errors and key noise; with the shipped sizes no worst-case bound fits, so there only the probabilistic statement C63 is possible.",
"all dimensions, polynomial sizes 2^5 to 2^62, gadgets, keys, masks, noises within the bounds; all programs, inputs, schedules",
"tests run with one random key at a time and cannot tell a noise overflow of rare keys or samples from correct behaviour",
["src/cloudovo/pbs.rs:54-90","src/cloudovo/pbs.rs:93-155","src/params.rs:100-116","src/ciphertexts.rs:33-41","src/ciphertexts.rs:150-300"])

p("C79","The look-up functions compute what their comments say, within exact ranges",
"Each look-up function of pbs.rs with a table of its own takes at most one bootstrap, returns fresh noise, and computes the function its comment names exactly for these messages in -16..15: id for |X| <= 8; X >=< +-3, +-4, +-5 for |X| <= 13, 12, 11; g_2 (times val) for |X| != 14; f_1 (times val) for X != -16; f_0 (times val) for all; |X| >= 1 and |X| >= 2 for -8 <= X < 8; mul_bit for all pairs of digits; round_2y_s on its documented arguments; max_s_2x_6y for all digits x, y and bits s; nonneg for all messages; squ_3_bit for |X| <= 8 (and -16), panicking for positions above 5; relu_plus only for X <= 3 other than -13, -15. Outside of these ranges the result is a different number.",
"all encryptions (any key, noise up to the tolerance) and trivial words of all 32 messages, all values val < 32",
"the functions are not public and several are not used, so no test reaches them; the negacyclic second half of each table is not written in the code",
["src/cloudovo/pbs.rs:160-420"])

p("C80","Weights when equal ciphertexts are added",
  "Bootstrapping is deterministic, so bootstraps of equal ciphertexts are equal ciphertexts and their noises do not average out but add. Counted over different ciphertexts (rather than different computations), no operation on operands of which all encrypted words are different samples bootstraps a combination of quadratic weight above quad_weight (22 or more). Holds for addition, subtraction (also without refresh), addition of constants, sign, rounding, maximum, ReLU and squares. For products without trivial words it fails exactly if one operand has 32 words and the other at most 16, or one has none and the other 16 or 18 to 32 (weight at least 36); otherwise the weight is at most 20. (It fails as well for products with an operand shifted left by two words, of which the low words are zeros: weight at least 26 at every length; likewise for squares of six or more words of which the upper half starts with two zeros. With at most two words per factor, or five words to be squared, trivial zeros do no harm.) No program at all exceeds 64, 81 or 225 (according to quad_weight).",
  "all pairs of lengths up to 32, all programs, all inputs, all schemes with linear operations","all schemes; equality of ciphertexts cannot be seen from decrypted values",
  ["src/cloudovo/multiplication.rs:298-302: mul_lwe","src/ciphertexts.rs:220-229","src/cloudovo/multiplication.rs: mul_impl, mul_karatsuba","src/lib.rs: MIN_QUAD_WEIGHT"])
p("C81","Probability of failure from the variance of the noise",
  "Let the errors of encryptions and of bootstraps be sub-Gaussian with variance V, the rounding of the masks inside a bootstrap sub-Gaussian with variance Vd and the rounding of the body at most R, and let the errors that meet in one bootstrapped word be independent. Encrypt inputs, run any program or network, decrypt the results: the probability that the run does not return, or that a result of at most 63 words is not the exact value, is at most n times the tail beyond 2^58 - R of an error of variance W V + Vd plus the number of words of the results times the tail beyond 2^58 of an error of variance V. Here n is the number of bootstraps and W is 64, 81 or 225 according to quad_weight; for single operations on fresh encryptions (addition, subtraction, constants, sign, maximum, ReLU, rounding) W is quad_weight itself.",
  "all programs, networks, inputs, lengths, seeds, parameters, distributions of the noise with these variances","a probability of failure of 2^-40 cannot be measured by running tests",
  ["src/params.rs: quad_weight","src/ciphertexts.rs","src/cloudovo","src/userovo/encryption.rs","src/lib.rs"])
p("C82","From the log of the search to the table in memory",
  "The lines variant.rb prints for the numbers up to 2^(LIMIT_WID-1) are read back by parse-asc_log-to-yaml.rb, and the YAML text written for them (with plain field names) is read by the library, as exactly the found numbers in ascending order, each with its first chain, whose value is the number. If no odd number is missing these lines are the head of the log, followed by a separator; the loader's check of the number of chains accepts the file exactly if none is missing. The log as a whole is never readable (the parser raises on the separators; lines behind the warning would all be filed under 0), and with the colons YAML.dump writes in front of symbol keys the library refuses the file. Any table of 64-bit numbers survives being written and read; of lines or entries for the same number the last one is kept.",
  "all limits up to 64 bits, all numbers of rounds, all tables","only one log and one file were ever converted, by hand in part",
  ["scripts/add-sub-special-chains/variant.rb:57-107,192-207","scripts/add-sub-special-chains/parse-asc_log-to-yaml.rb","src/cloudovo/scalar_multiplication/asc.rs:16-23,96-128","assets/asc-12.yaml"])
p("C83","The search misses no chain with up to three additions",
"For every width limit and every number of rounds, every number that can be computed from 1 with at most three additions or subtractions (and not more than there are rounds), all intermediate numbers odd and positive and no shifted operand above 2^(LIMIT_WID-1), is found by scripts/add-sub-special-chains/variant.rb, and the chains kept for it have at most that many additions. So the numbers of additions the script prints (up to four) are the smallest possible ones within these bounds.",
"for all limits, numbers of rounds and chains",
"The script keeps only one width per chain and drops chains through numbers that have a shorter one; whether this loses a number depends on the limit, and the runs take hours.",
["scripts/add-sub-special-chains/variant.rb:8-13,79-169","assets/asc-12.yaml"])
p("C84","The first script lists the sums of two signed powers of two",
"For every LIMIT_LOG, scripts/add-sub-special-chains/gen-chains.rb ends without an exception and lists, each once, exactly the numbers +-2^i with i < LIMIT_LOG and the sums of two different such numbers. Under each number it prints a tree of signed powers of two that stands for it. The tree has no addition for +-2^i and one addition otherwise, and no way to write a number other than 0 with digits -1, 0, 1 has fewer nonzero digits than that.",
"for all LIMIT_LOG and all listed numbers",
"The script has no tests; one run lists the numbers of one limit.",
["scripts/add-sub-special-chains/gen-chains.rb:5-104"])

p("C85","Noise budget of each operation",
  "The tolerance asked for in C38 is that of the most demanding operation. A program needs only the largest one of its own operations: 15 times the fresh noise for sign, rounding, maximum and ReLU with quad_weight >= 85, 9 for the maximum with 41..84, and 8 for everything else, whatever quad_weight. So programs of additions, subtractions, constants, shifts, products, squares and scalar products are exact with keys too noisy for a sign. For sums, differences, products, squares, multiplication by 3, signs, roundings, maxima and ReLU the budget is exact: with one fresh noise less some conforming scheme never gives the right result. A neural network likewise needs only the budget of its most demanding perceptron: 8 for linear ones whatever quad_weight, that of ReLU for activated ones and that of the maximum for max-pooling ones; these are exact too.",
  "all programs, networks, inputs, noise values, schemes and every quad_weight","worst-case noise is not samplable, and which branch needs which budget is not visible in results",
  ["src/cloudovo/signum.rs: quad_weight >= 85","src/cloudovo/maximum.rs: quad_weight >= 41","src/cloudovo/addition.rs: add_sub_impl","src/cloudovo/neural_network.rs: eval_layer"])
with open(os.path.join(os.path.dirname(__file__),"..","properties.jsonl"),"w") as f:
    for x in P: f.write(json.dumps(x)+"\n")
print(len(P))
